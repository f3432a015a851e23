import Mathlib.Analysis.SpecialFunctions.Gamma.Basic

set_option autoImplicit false

/-!
The gamma distribution.
-/
namespace CB.Spec

/-- Density of the gamma distribution with shape `a` and rate `b` at `x > 0`. -/
noncomputable def gammaDensity (a b x : ℝ) : ℝ :=
  b ^ a / Real.Gamma a * x ^ (a - 1) * Real.exp (-(b * x))

end CB.Spec
