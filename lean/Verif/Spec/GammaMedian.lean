import Mathlib.Analysis.SpecialFunctions.Gamma.Basic

/-!
# The medians of the gamma distributions

What `scipy.special.gammaincinv(a, 0.5)` stands for in the estimators of Poisson and negative binomial regression.
-/

set_option autoImplicit false

namespace CB
namespace Spec

open MeasureTheory

/-- `m` is the median of the gamma distribution with shape `a` and rate 1: its density, up to its constant `t ^ (a - 1) * exp (-t)`, has
the same area below and above `m`. -/
def IsGammaMedian (a m : ℝ) : Prop :=
  0 < m ∧ ∫ t in (0 : ℝ)..m, t ^ (a - 1) * Real.exp (-t) = ∫ t in Set.Ioi m, t ^ (a - 1) * Real.exp (-t)

/-- The function returns the medians of the gamma distributions for the shapes that occur, which are at least 2. -/
def GammaMedian (gammaincinv : ℝ → ℝ) : Prop := ∀ a, 2 ≤ a → IsGammaMedian a (gammaincinv a)

end Spec
end CB
