import Verif.Model.FloatEstimates
import Verif.Spec.Rows

/-!
# When estimators compute numbers

The cases in which the code divides by zero while it estimates the parameters of a bin, and their absence.
-/

set_option autoImplicit false

namespace CB
namespace Spec

/-- The bin of sample `i` in the feature with the columns `group`. -/
noncomputable def binOf (D : TrainSet) (group : List String) (i : ℕ) : ℕ := (bindData D.X D.n group none).1.getD i 0

/-- Every bin that has samples has one of positive weight. -/
def BinsHaveWeight (D : TrainSet) (group : List String) : Prop :=
  ∀ i < D.n, ∃ k < D.n, binOf D group k = binOf D group i ∧ 0 < D.w k

/-- The targets of the samples of positive weight are not all the same. -/
def TargetsVary (D : TrainSet) : Prop := ∃ i < D.n, ∃ j < D.n, 0 < D.w i ∧ 0 < D.w j ∧ D.y i ≠ D.y j

/-- The estimators of the package with parameters and training sets for which they do not divide by zero. -/
inductive EstimatesNumbers (groups : List (List String)) (D : TrainSet) : Estimator → Prop
  | poisson (g : ℝ → ℝ) : EstimatesNumbers groups D (poissonEstimator g)
  | nbinom (g : ℝ → ℝ) (a c : ℝ) (ha : 0 < a) (hc : 0 ≤ c) : EstimatesNumbers groups D (nbinomEstimator g a c)
  | classifier (ppf : ℝ → ℝ → ℝ → ℝ) (coef : ℝ → ℝ) : EstimatesNumbers groups D (classifierEstimator ppf coef)
  | location (h : ∀ g ∈ groups, BinsHaveWeight D g) : EstimatesNumbers groups D locationEstimator
  | locPoisson (h : TargetsVary D) : EstimatesNumbers groups D locPoissonEstimator
  | gbs (regalpha : ℝ) (h : -1 ≤ regalpha) : EstimatesNumbers groups D (gbsEstimator regalpha)

theorem EstimatesNumbers.modelled {groups : List (List String)} {D : TrainSet} {E : Estimator} (h : EstimatesNumbers groups D E) :
    Modelled E := by
  cases h with
  | poisson g => exact .poisson g
  | nbinom g a c => exact .nbinom g a c
  | classifier ppf coef => exact .classifier ppf coef
  | location => exact .location
  | locPoisson => exact .locPoisson
  | gbs r => exact .gbs r

end Spec
end CB
