import Verif.Model.Flt
import Mathlib.Data.Real.Basic

/-!
# Specification: interpolation
-/

set_option autoImplicit false

namespace CB.Spec

/-- What the regression type "interpolating" promises: `f` within the range of the bins, no value outside it. -/
noncomputable def interpolated (f : Flt ℝ → Flt ℝ) (nBins : ℕ) : Flt ℝ → Flt ℝ
  | .fin b => if 0 ≤ b ∧ b ≤ (nBins : ℝ) - 1 / 2 then f (.fin b) else .nan
  | .nan => f .nan
  | .pinf => .nan
  | .ninf => .nan

end CB.Spec
