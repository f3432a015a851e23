import Verif.Model.CurveSmoothers
import Mathlib.Algebra.BigOperators.Group.Finset.Basic

/-!
# Specification: curves fitted to bin values
-/

set_option autoImplicit false

namespace CB.Spec
open Finset

/-- A seasonal curve over the angle: a constant and the sines and cosines of the first `order` multiples of the angle. -/
noncomputable def seasonalCurve (order : ℕ) (c : ℝ) (a b : ℕ → ℝ) (angle : ℝ) : ℝ :=
  c + ∑ k ∈ range order, (a k * Real.sin ((k + 1 : ℕ) * angle) + b k * Real.cos ((k + 1 : ℕ) * angle))

/-- A seasonal curve over the bins `0, …, n - 1` of a year with `n` bins. -/
noncomputable def yearCurve (n order : ℕ) (c : ℝ) (a b : ℕ → ℝ) (bin : ℕ) : ℝ :=
  seasonalCurve order c a b (2 * Real.pi * bin / n)

/-- Squared deviations of `values` from `curve`, in units of the uncertainties. -/
noncomputable def chiSquare (n : ℕ) (values unc curve : ℕ → ℝ) : ℝ := ∑ j ∈ range n, ((curve j - values j) / unc j) ^ 2

/-- What is assumed of `scipy.optimize.curve_fit` for the built-in fit functions: with positive uncertainties and enough points it
finds parameters for which the squared deviations in units of the uncertainties are smallest; with too few points it raises. -/
structure IsCurveFit (curveFit : CurveFit) : Prop where
  best : ∀ order f, chooseFitFunction order = .ok f → ∀ data : List (ℝ × ℝ × ℝ), f.parameters ≤ data.length →
    (∀ d ∈ data, 0 < d.2.2) → ∃ par, curveFit f data = some par ∧ par.length = f.parameters ∧
      ∀ q : List ℝ, q.length = f.parameters →
        (data.map fun d => ((f.value par d.1 - d.2.1) / d.2.2) ^ 2).sum ≤ (data.map fun d => ((f.value q d.1 - d.2.1) / d.2.2) ^ 2).sum
  few : ∀ order f, chooseFitFunction order = .ok f → ∀ data : List (ℝ × ℝ × ℝ), data.length < f.parameters →
    curveFit f data = none

/-- What is assumed of `numpy.polyfit` (its documentation): `degree + 1` coefficients for which the sum of the squared weighted
deviations is smallest. -/
structure IsPolyFit (polyfit : PolyFit) : Prop where
  length : ∀ degree data, data ≠ [] → (polyfit degree data).length = degree + 1
  best : ∀ degree (data : List (ℝ × ℝ × ℝ)) (q : List ℝ), data ≠ [] → q.length = degree + 1 →
    (data.map fun d => (d.2.2 * (polyval (polyfit degree data) d.1 - d.2.1)) ^ 2).sum
      ≤ (data.map fun d => (d.2.2 * (polyval q d.1 - d.2.1)) ^ 2).sum

/-- A polynomial with coefficient `c k` of the power `k`. -/
def polynomialCurve (degree : ℕ) (c : ℕ → ℝ) (x : ℝ) : ℝ := ∑ k ∈ range (degree + 1), c k * x ^ k

/-- Squared deviations of `values` from `curve`, weighted by one over the fourth power of the uncertainties. -/
noncomputable def fourthPowerError (n : ℕ) (values unc curve : ℕ → ℝ) : ℝ := ∑ j ∈ range n, (curve j - values j) ^ 2 / unc j ^ 4

end CB.Spec
