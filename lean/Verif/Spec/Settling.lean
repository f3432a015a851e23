import Verif.Spec.Descent

/-!
# Specification: the predictions training starts from, and a different bound on the iterations
-/

set_option autoImplicit false

namespace CB.Spec
open Finset

/-- The predictions training of the additive regressor starts from: the prior prediction of the sample if there is one and it is a
finite number, the weighted mean of the target otherwise. -/
noncomputable def startingPredictions (D : TrainSet) (i : ℕ) : ℝ :=
  let mean := (∑ j ∈ range D.n, D.y j * D.w j) / ∑ j ∈ range D.n, D.w j
  match D.prior with
  | none => mean
  | some prior =>
    match prior i with
    | .fin x => x
    | _ => mean

/-- The same parameters, learning rates and smoothers, but another `maximal_iterations`. -/
def withMaximalIterations {σ : Type*} (S : Setup σ) (N : ℕ) : Setup σ :=
  { S with params := { S.params with maximalIterations := N } }

/-- The conditions of C80 and C121: increments are added up (`aggregate`), no hierarchical feature groups, weights and regularization
are not negative, learning rates between 0 and 1, ordinary features, and smoothers that keep the value of a bin or move it towards 0. -/
structure PlainDescent {σ : Type*} (S : Setup σ) (D : TrainSet) (regalpha : ℝ) : Prop where
  aggregate : S.params.aggregate = true
  noHierarchy : S.params.hierarchical = none
  regalpha : 0 ≤ regalpha
  weights : ∀ i < D.n, 0 ≤ D.w i
  learnRate : ∀ k, 0 ≤ S.learnRate k ∧ S.learnRate k ≤ 1
  features : ∀ f ∈ S.features, f.1.group ≠ [] ∧ f.1.external = false
  smoothers : ShrinkingSmoothers S D

end CB.Spec
