import Verif.Model.Fit
import Verif.Model.GenericFit

/-!
# Specification: estimators whose baseline is the mean of the target
-/

set_option autoImplicit false

namespace CB.Spec

/-- The estimators that start from the weighted mean of the target plus 0.001, with the transformation their predictions are sums
under: logarithm, logit or none. -/
inductive MeanBased : LinkKind → Estimator → Prop
  | poisson (g : ℝ → ℝ) : MeanBased .log (poissonEstimator g)
  | nbinom (g : ℝ → ℝ) (a c : ℝ) : MeanBased .log (nbinomEstimator g a c)
  | generic (costs : List (ℝ × ℝ × ℝ) → Flt ℝ) (minimize : (ℝ → Flt ℝ) → ℝ → ℝ) :
      MeanBased .log (genericEstimator true costs minimize)
  | classifier (ppf : ℝ → ℝ → ℝ → ℝ) (coef : ℝ → ℝ) : MeanBased .logit (classifierEstimator ppf coef)
  | genericClassifier (ppf : ℝ → ℝ → ℝ → ℝ) (coef : ℝ → ℝ) (costs : List (ℝ × ℝ × ℝ) → Flt ℝ)
      (minimize : (ℝ → Flt ℝ) → ℝ → ℝ) : MeanBased .logit (genericClassifierEstimator ppf coef costs minimize)
  | location : MeanBased .identity locationEstimator
  | locPoisson : MeanBased .identity locPoissonEstimator
  | additive (costs : List (ℝ × ℝ × ℝ) → Flt ℝ) (minimize : (ℝ → Flt ℝ) → ℝ → ℝ) :
      MeanBased .identity (genericEstimator false costs minimize)

/-- No feature of the model contributes to the prediction of sample `s` of the table. -/
def NoContribution (m : FittedModel) (X : Table ℝ) (s : ℕ) : Prop := ∀ f ∈ m.features, f.predict (X.row f.group s) = 0

end CB.Spec
