import Mathlib.Analysis.SpecialFunctions.Log.Basic
import Mathlib.Algebra.BigOperators.Group.Finset.Basic

/-!
# Specification: the mean of factors
-/

set_option autoImplicit false

open Finset

namespace CB.Spec

/-- `v` is the logarithm of the weighted mean of the exponentials of `xs 0`, ..., `xs (k - 1)`, where weights of zero count as 1. -/
noncomputable def IsLogMeanExp (k : ℕ) (ws xs : ℕ → ℝ) (v : ℝ) : Prop :=
  Real.exp v * ∑ j ∈ range k, (if ws j = 0 then 1 else ws j) = ∑ j ∈ range k, (if ws j = 0 then 1 else ws j) * Real.exp (xs j)

end CB.Spec
