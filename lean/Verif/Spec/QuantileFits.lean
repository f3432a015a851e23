import Verif.Model.QuantileFits
import Mathlib.Algebra.BigOperators.Group.List.Basic

/-!
# Specification: least-squares fits with two parameters
-/

set_option autoImplicit false

namespace CB.Spec

/-- The parameters are valid at all points. -/
def ValidAt (f : PairFunction) (data : List (ℝ × ℝ)) (p : ℝ × ℝ) : Prop := ∀ d ∈ data, (f d.1 p.1 p.2).isSome

/-- Sum of squared deviations. -/
noncomputable def pairError (f : PairFunction) (data : List (ℝ × ℝ)) (p : ℝ × ℝ) : ℝ :=
  (data.map fun d => ((f d.1 p.1 p.2).getD 0 - d.2) ^ 2).sum

/-- Valid parameters with the smallest sum of squared deviations. -/
def BestPair (f : PairFunction) (data : List (ℝ × ℝ)) (p : ℝ × ℝ) : Prop :=
  ValidAt f data p ∧ ∀ q, ValidAt f data q → pairError f data p ≤ pairError f data q

/-- What is assumed of `scipy.optimize.curve_fit`: if there are best parameters, it finds such. -/
def IsPairFit (fit : PairFit) : Prop := ∀ f data p, BestPair f data p → ∃ r, fit f data = some r ∧ BestPair f data r

end CB.Spec
