import Verif.Spec.Convergence
import Verif.Spec.CostDescent

/-!
# Specification: squared costs
-/

set_option autoImplicit false

namespace CB.Spec
open Finset

/-- The squared difference of prediction and target. -/
def squaredCost (prediction target : ℝ) : ℝ := (prediction - target) ^ 2

/-- The prediction training starts from without prior predictions: the weighted mean of the target, plus 0.001. -/
noncomputable def scaledStart (D : TrainSet) (_ : ℕ) : ℝ := (∑ j ∈ range D.n, D.y j * D.w j) / (∑ j ∈ range D.n, D.w j) + 0.001

/-- The conditions of C160: those of C124 (nothing is regularized here), at least one feature, no prior predictions, the limits of the
code, and an optimiser that finds minima where there are any and is never worse than its start value. -/
structure FreeCostDescent {σ : Type*} (S : Setup σ) (D : TrainSet) (minimize : (ℝ → Flt ℝ) → ℝ → ℝ) (low : ℝ) : Prop where
  free : FreeDescent S D 0 low
  features : S.features ≠ []
  noPrior : D.prior = none
  limits : S.params.consts = realConsts
  finds : FindsMinimum minimize
  notWorse : NotWorse minimize

end CB.Spec
