import Verif.Model.Fit

/-!
# Specification: training error and shrinking smoothers
-/

set_option autoImplicit false

namespace CB.Spec
open Finset

/-- The weighted sum of the squared errors of a prediction on the training data. -/
noncomputable def trainingError (D : TrainSet) (prediction : ℕ → ℝ) : ℝ :=
  ∑ i ∈ range D.n, D.w i * (prediction i - D.y i) ^ 2

/-- At the centre of each bin, the smoother of each feature returns the value of the bin, or a value closer to 0 on the same side
(or nothing, which is replaced by the neutral factor), for all bin values and uncertainties. -/
def ShrinkingSmoothers {σ : Type*} (S : Setup σ) (D : TrainSet) : Prop :=
  ∀ f ∈ S.features, ∀ (uncertainties values : ℕ → ℝ) (b : ℕ) (v : ℝ),
    smoothAtCentres S.base f.2 (bindData D.X D.n f.1.group none).2 (binSum D.n (f.1.cfg D.X D.n).bin D.w) uncertainties values b
      = some v →
    ∃ t, 0 ≤ t ∧ t ≤ 1 ∧ v = t * values b

/-- Smoothers that return the value of each bin they return anything for. -/
def KeepingSmoothers {σ : Type*} (S : Setup σ) (D : TrainSet) : Prop :=
  ∀ f ∈ S.features, ∀ (uncertainties values : ℕ → ℝ) (b : ℕ) (v : ℝ),
    smoothAtCentres S.base f.2 (bindData D.X D.n f.1.group none).2 (binSum D.n (f.1.cfg D.X D.n).bin D.w) uncertainties values b
      = some v → v = values b

end CB.Spec
