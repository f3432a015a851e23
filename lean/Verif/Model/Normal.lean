import Verif.Model.QuantileMatching
import Mathlib.MeasureTheory.Integral.Bochner.Set
import Mathlib.MeasureTheory.Measure.Lebesgue.Basic
import Mathlib.Analysis.Real.Pi.Bounds

/-!
# Model of `scipy.stats.norm()`, the default base distribution in `cyclic_boosting/quantile_matching.py`
-/

set_option autoImplicit false

namespace CB

noncomputable section

/-- The density of `scipy.stats.norm()` as scipy documents it, `exp(-x²/2)/√(2π)`.
Models: cyclic_boosting/quantile_matching.py:44-45 (the imported scipy object). -/
def normalPdf (x : ℝ) : ℝ := Real.exp (-x ^ 2 / 2) / Real.sqrt (2 * Real.pi)

/-- `scipy.stats.norm()`: the distribution function is the integral of the density, the quantile function gives the
smallest value at which the distribution function reaches the given level.  Simplification: scipy evaluates both by
series expansions; the model has the exact values.
Models: cyclic_boosting/quantile_matching.py:44-45,203-204,417-418,486-487,568-569 (the imported scipy object). -/
def normalBase : Base where
  ppf p := sInf {x | p ≤ ∫ t in Set.Iic x, normalPdf t}
  cdf x := ∫ t in Set.Iic x, normalPdf t

end

end CB
