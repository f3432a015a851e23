import Verif.Model.GenericFit
import Verif.Spec.ClassifierQuantiles
import Verif.Spec.FloatEstimates

/-!
# What an uncertainty should be
-/

set_option autoImplicit false

namespace CB
namespace Spec
open Finset

/-- The sum of `x` over the samples of bin `b`. -/
def overBin (n : ℕ) (codes : ℕ → ℕ) (b : ℕ) (x : ℕ → ℝ) : ℝ := ∑ i ∈ (range n).filter (fun i => codes i = b), x i

/-- The number of samples in bin `b`. -/
def numberInBin (n : ℕ) (codes : ℕ → ℕ) (b : ℕ) : ℕ := ((range n).filter (fun i => codes i = b)).card

/-- The estimators that give every bin a positive uncertainty, with the training sets for which they do: all but the background
subtraction. `group` are the columns of the feature. -/
inductive Uncertain (D : TrainSet) (group : List String) : Estimator → Prop
  | poisson (g : ℝ → ℝ) : Uncertain D group (poissonEstimator g)
  | nbinom (g : ℝ → ℝ) (a c : ℝ) (ha : 0 < a) (hc : 0 ≤ c) : Uncertain D group (nbinomEstimator g a c)
  | classifier (ppf : ℝ → ℝ → ℝ → ℝ) (coef : ℝ → ℝ) (h : ActualQuantiles ppf coef) : Uncertain D group (classifierEstimator ppf coef)
  | location (h : BinsHaveWeight D group) : Uncertain D group locationEstimator
  | locPoisson (h : TargetsVary D) : Uncertain D group locPoissonEstimator
  | quantile (multiplicative : Bool) (q : ℝ) (minimize : (ℝ → Flt ℝ) → ℝ → ℝ)
      (h : multiplicative = false → BinsHaveWeight D group) : Uncertain D group (quantileEstimator multiplicative q minimize)
  | generic (multiplicative : Bool) (costs : List (ℝ × ℝ × ℝ) → Flt ℝ) (minimize : (ℝ → Flt ℝ) → ℝ → ℝ)
      (h : multiplicative = false → BinsHaveWeight D group) : Uncertain D group (genericEstimator multiplicative costs minimize)
  | genericClassifier (ppf : ℝ → ℝ → ℝ → ℝ) (coef : ℝ → ℝ) (costs : List (ℝ × ℝ × ℝ) → Flt ℝ) (minimize : (ℝ → Flt ℝ) → ℝ → ℝ)
      (h : ActualQuantiles ppf coef) : Uncertain D group (genericClassifierEstimator ppf coef costs minimize)

end Spec
end CB
