import Verif.Spec.Convergence

/-!
# Specification: the cells of an interaction
-/

set_option autoImplicit false

namespace CB.Spec
open Finset

/-- Every training sample has a bin number in each of the columns: a natural number. -/
def HasBinNumbers (D : TrainSet) (columns : List String) : Prop := ∀ s < D.n, ∀ c ∈ columns, ∃ k : ℕ, D.X s c = .fin (k : ℝ)

/-- The training samples that agree with sample `i` in all of the columns. -/
noncomputable def cell (D : TrainSet) (columns : List String) (i : ℕ) : Finset ℕ :=
  open Classical in (range D.n).filter fun j => ∀ c ∈ columns, D.X j c = D.X i c

/-- The weighted mean of the target over the training samples that agree with sample `i` in all of the columns. -/
noncomputable def cellMean (D : TrainSet) (columns : List String) (i : ℕ) : ℝ :=
  (∑ j ∈ cell D columns i, D.w j * D.y j) / ∑ j ∈ cell D columns i, D.w j

end CB.Spec
