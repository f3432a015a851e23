import Verif.Spec.Settling
import Verif.Spec.Calibration

/-!
# Specification: the best additive model, and training that nothing holds back
-/

set_option autoImplicit false

namespace CB.Spec
open Finset

/-- `q` is what some additive model says about the training samples: the predictions training starts from, plus one number for each bin
of each feature. -/
def AdditiveModel {σ : Type*} (S : Setup σ) (D : TrainSet) (q : ℕ → ℝ) : Prop :=
  ∃ φ : FeatureSpec × SmootherKind → ℕ → ℝ,
    ∀ i < D.n, q i = startingPredictions D i + (S.features.map fun f => φ f ((f.1.cfg D.X D.n).bin i)).sum

/-- `q` is an additive model with the smallest weighted squared error on the training data. -/
def BestAdditiveModel {σ : Type*} (S : Setup σ) (D : TrainSet) (q : ℕ → ℝ) : Prop :=
  AdditiveModel S D q ∧ ∀ q', AdditiveModel S D q' → trainingError D q ≤ trainingError D q'

/-- The weighted sum of the squared differences of two predictions of the training samples. -/
noncomputable def weightedDistance (D : TrainSet) (p q : ℕ → ℝ) : ℝ := ∑ i ∈ range D.n, D.w i * (p i - q i) ^ 2

/-- The conditions of C124: those of C80, learning rates of at least `low > 0`, and no smoothing of the bins that samples with weight
fall into. Features made of a single column hold integers or special values there, as bin numbers do. -/
structure FreeDescent {σ : Type*} (S : Setup σ) (D : TrainSet) (regalpha low : ℝ) : Prop where
  plain : PlainDescent S D regalpha
  learnRate : ∀ k, 1 ≤ k → low ≤ S.learnRate k
  unsmoothed : ∀ f ∈ S.features, ∀ i < D.n, D.w i ≠ 0 → Unsmoothed S D f ((f.1.cfg D.X D.n).bin i)
  binNumbers : ∀ f ∈ S.features, ∀ c, f.1.group = [c] → ∀ i < D.n, ∀ x : ℝ, D.X i c = .fin x → ∃ k : ℤ, x = (k : ℝ)

/-- Two training problems with the same features, the same columns and the same weights: target, prior predictions and all other
parameters may differ. -/
structure SameDesign {σ : Type*} (S S' : Setup σ) (D D' : TrainSet) : Prop where
  features : S'.features = S.features
  samples : D'.n = D.n
  columns : D'.X = D.X
  weights : D'.w = D.w

end CB.Spec
