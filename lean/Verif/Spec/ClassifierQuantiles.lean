import Mathlib.Analysis.SpecialFunctions.Pow.Real
import Mathlib.MeasureTheory.Integral.IntervalIntegral.Basic
import Mathlib.Analysis.Real.Pi.Bounds

/-!
# The quantiles of the beta and of the normal distribution

What `scipy.stats.beta(a, b).ppf(p)` and `sqrt(2) * scipy.special.erfinv(2 * p - 1)` stand for in the classifier.
-/

set_option autoImplicit false

namespace CB
namespace Spec

open MeasureTheory

/-- `q` is the quantile at level `p` of the beta distribution: the area of its density, up to the constant `t ^ (a - 1) * (1 - t) ^ (b - 1)`,
below `q` is the share `p` of the whole area. -/
def IsBetaQuantile (a b p q : ℝ) : Prop :=
  0 < q ∧ q < 1 ∧ ∫ t in (0 : ℝ)..q, t ^ (a - 1) * (1 - t) ^ (b - 1) = p * ∫ t in (0 : ℝ)..1, t ^ (a - 1) * (1 - t) ^ (b - 1)

/-- `z` is the quantile at level `p` of the standard normal distribution. -/
def IsNormalQuantile (p z : ℝ) : Prop := ∫ t in Set.Iic z, Real.exp (-t ^ 2 / 2) / Real.sqrt (2 * Real.pi) = p

/-- The functions return the quantiles of the beta and of the standard normal distribution. -/
structure ActualQuantiles (betaPpf : ℝ → ℝ → ℝ → ℝ) (normalPpf : ℝ → ℝ) : Prop where
  beta : ∀ a b p, 0 < a → 0 < b → 0 < p → p < 1 → IsBetaQuantile a b p (betaPpf a b p)
  normal : ∀ p, 0 < p → p < 1 → IsNormalQuantile p (normalPpf p)

end Spec
end CB
