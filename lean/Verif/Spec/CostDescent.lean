import Verif.Model.GenericFit
import Verif.Props.Quantile

/-!
# Specification: costs that are minimised bin by bin
-/

set_option autoImplicit false

namespace CB.Spec
open Finset

/-- The weighted sum of the losses of a prediction on the training data, for a loss of prediction and target. -/
noncomputable def trainingCost (loss : ℝ → ℝ → ℝ) (D : TrainSet) (prediction : ℕ → ℝ) : ℝ :=
  ∑ i ∈ range D.n, D.w i * loss (prediction i) (D.y i)

open Classical in
/-- The costs a user would define from a loss: its weighted mean over samples (prediction, target, weight); 0 without samples, not
a number without weight. -/
noncomputable def meanCosts (loss : ℝ → ℝ → ℝ) (l : List (ℝ × ℝ × ℝ)) : Flt ℝ :=
  if l = [] then .fin 0
  else if (l.map fun s => s.2.2).sum = 0 then .nan
  else .fin ((l.map fun s => s.2.2 * loss s.1 s.2.1).sum / (l.map fun s => s.2.2).sum)

/-- A loss that is not negative and convex in the prediction. -/
structure ConvexLoss (loss : ℝ → ℝ → ℝ) : Prop where
  nonneg : ∀ p y, 0 ≤ loss p y
  convex : ∀ a b y t, 0 ≤ t → t ≤ 1 → loss ((1 - t) * a + t * b) y ≤ (1 - t) * loss a y + t * loss b y

/-- The only thing needed of the numerical optimiser: what it returns is not worse than its start value. -/
def NotWorse (minimize : (ℝ → Flt ℝ) → ℝ → ℝ) : Prop :=
  ∀ (f : ℝ → Flt ℝ) (start b : ℝ), f start = .fin b → ∃ a, f (minimize f start) = .fin a ∧ a ≤ b

/-- The regressors that minimise costs bin by bin with the optimiser `minimize`, multiplicative or additive, with their loss: the
quantile regressors, and the generic regressors for weighted means of a convex loss. -/
inductive CostEstimator (minimize : (ℝ → Flt ℝ) → ℝ → ℝ) : Bool → Estimator → (ℝ → ℝ → ℝ) → Prop
  | quantile (multiplicative : Bool) (q : ℝ) (h0 : 0 ≤ q) (h1 : q ≤ 1) :
    CostEstimator minimize multiplicative (quantileEstimator multiplicative q minimize) (Spec.pinball q)
  | generic (multiplicative : Bool) (loss : ℝ → ℝ → ℝ) (h : ConvexLoss loss) :
    CostEstimator minimize multiplicative (genericEstimator multiplicative (meanCosts loss) minimize) loss

/-- In the multiplicative mode, no bin gets a parameter of -1e-5 or less (of which the code takes the logarithm), whatever the
bins and the predictions of the other features. -/
def NoNegativeParameters (minimize : (ℝ → Flt ℝ) → ℝ → ℝ) (multiplicative : Bool) (loss : ℝ → ℝ → ℝ) (D : TrainSet) : Prop :=
  multiplicative = true → ∀ (codes : ℕ → ℕ) (prediction : ℕ → ℝ) (b : ℕ),
    -1e-5 < minimize (fun param => meanCosts loss
      (((List.range D.n).filter fun i => decide (codes i = b)).map fun i => (param * Real.exp (prediction i), D.y i, D.w i))) 1

end CB.Spec
