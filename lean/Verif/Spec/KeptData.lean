import Verif.Model.KeptData

/-!
# Specification of the data an estimator keeps
-/

set_option autoImplicit false

namespace CB.Spec

/-- Some attribute of the estimator, of its features or of its observer refers to samples of the table. -/
def Keeps (s : KeptData) (data : ℕ) : Prop :=
  s.weights = some data ∨ s.mu = some data ∨ s.externalCol = some data ∨ s.weightsExternal = some data ∨
    some data ∈ s.features ∨ some data ∈ s.older ∨ some data ∈ s.observed

/-- The call did not raise. -/
def Completed : KeeperCall → Prop
  | .fit _ _ _ stop => stop = none
  | .predict _ stop => stop = none

end CB.Spec
