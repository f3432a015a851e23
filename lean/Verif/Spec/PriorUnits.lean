import Verif.Spec.TargetUnits

/-!
# Specification: prior predictions in other units or from another origin
-/

set_option autoImplicit false

namespace CB.Spec
open Finset

/-- A float plus a number. -/
def moved (c : ℝ) : Flt ℝ → Flt ℝ
  | .fin x => .fin (c + x)
  | .nan => .nan
  | .pinf => .pinf
  | .ninf => .ninf

/-- The same training set with other prior predictions. -/
def withPrior (D : TrainSet) (prior : ℕ → Flt ℝ) : TrainSet := { D with prior := some prior }

/-- The weighted mean of those prior predictions of the training set that are numbers. -/
def IsPriorMean (D : TrainSet) (prior : ℕ → Flt ℝ) (mean : ℝ) : Prop :=
  let usable := (range D.n).filter fun i => (prior i).isFinite = true
  ∑ i ∈ usable, D.w i ≠ 0 ∧ (∑ i ∈ usable, D.w i) * mean = ∑ i ∈ usable, (prior i).getFin * D.w i

end CB.Spec
