import Verif.Model.Fit

/-!
# Vocabulary of C128: missing values that training has not seen
-/

set_option autoImplicit false

namespace CB.Spec

/-- Every training sample has a bin number in every column of the group. -/
def NoMissing (D : TrainSet) (group : List String) : Prop := ∀ s < D.n, ∀ c ∈ group, ∃ x, D.X s c = .fin x ∧ 0 ≤ x

/-- The row lacks a bin number: one entry is no number or negative. -/
def LacksBin (row : List (Flt ℝ)) : Prop := ∃ b ∈ row, ∀ x : ℝ, b = .fin x → x < 0

/-- The optimiser returns its start value if all parameters cost the same. -/
def KeepsStart (minimize : (ℝ → Flt ℝ) → ℝ → ℝ) : Prop := ∀ v x, minimize (fun _ => v) x = x

end CB.Spec
