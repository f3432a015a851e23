import Mathlib.Data.Real.Basic
import Mathlib.Algebra.BigOperators.Group.Finset.Basic

/-!
# Specification of the baseline
-/

set_option autoImplicit false

namespace CB.Spec
open Finset

/-- Weighted mean of `x` over the first `n` samples. -/
noncomputable def wmean (n : ℕ) (x w : ℕ → ℝ) : ℝ := (∑ i ∈ range n, w i * x i) / ∑ i ∈ range n, w i

/-- The odds of a probability. -/
noncomputable def odds (p : ℝ) : ℝ := p / (1 - p)

end CB.Spec
