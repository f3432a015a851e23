import Verif.Model.ShapeFit

/-!
# Specification: change of location and unit
-/

set_option autoImplicit false

namespace CB.Spec

/-- A supported range in other units: every value `x` becomes `a + b * x`. -/
noncomputable def rangeInUnits (a b : ℝ) : Range → Range
  | .U => .U
  | .S l => .S (a + b * l)
  | .B l u => .B (a + b * l) (a + b * u)

/-- Two distributions are the same up to units. Quantile functions and distribution functions are partial: `none` is NaN. -/
def SameUpToUnits (a b : ℝ) (quantile prob quantile' prob' : ℝ → Option ℝ) : Prop :=
  (∀ p, quantile' p = (quantile p).map fun x => a + b * x) ∧ ∀ x, prob' (a + b * x) = prob x

/-- The arguments at which `f` is smallest. -/
def smallestAt (f : ℝ → Option ℝ) : Set ℝ := {s | ∃ v, f s = some v ∧ ∀ t w, f t = some w → v ≤ w}

/-- What is assumed of `scipy.optimize.minimize_scalar`: it returns one of the arguments at which the function is smallest, if there
are any, and which one depends on nothing else. -/
def IsMinimizer (minimize : (ℝ → Option ℝ) → ℝ) : Prop :=
  ∃ pick : Set ℝ → ℝ, (∀ s : Set ℝ, s.Nonempty → pick s ∈ s) ∧ ∀ f, minimize f = pick (smallestAt f)

/-- The mode `bound` stands for the range `r`: "S" for values above `l`, "B" for values between `l` and `u`, "U" for all. -/
def IsModeOf (bound : String) (l u : ℝ) (r : Range) : Prop :=
  (bound = "S" ∧ r = .S l) ∨ (bound = "B" ∧ r = .B l u) ∨ (bound = "U" ∧ r = .U)

/-- How far the quantiles of the distribution with shape `s` are from those of the observations, at the 999 levels
0.0005, 0.0015, ..., 0.9985. -/
noncomputable def quantileDistance (r : Range) (j : Johnson) (alpha : ℝ) (y : List ℝ) (s : ℝ) : ℝ :=
  ∑ i ∈ Finset.range 999,
    |mQuantile y ((2 * i + 1) / 2000) - extendedPpf r j (sinhLogistic s) alpha ((2 * i + 1) / 2000)|

end CB.Spec
