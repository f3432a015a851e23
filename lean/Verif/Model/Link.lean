import Mathlib.Analysis.SpecialFunctions.Log.Basic

set_option autoImplicit false

/-!
Model of `cyclic_boosting/link.py` and `cyclic_boosting/learning_rate.py` on real numbers (no rounding, no overflow of
`exp`).
-/
namespace CB

/-- `LinkFunction`, `link.py` lines 17-33: admissible values, link and mean function, one element at a time. -/
structure Link where
  inRange : ℝ → Prop
  link : ℝ → ℝ
  unlink : ℝ → ℝ

/-- `LogLinkMixin`, `link.py` lines 36-61. -/
noncomputable def logLink : Link := ⟨fun m => m > 0, fun m => Real.log m, fun l => Real.exp l⟩

/-- `LogitLinkMixin`, `link.py` lines 64-89. -/
noncomputable def logitLink : Link :=
  ⟨fun p => 0 ≤ p ∧ p ≤ 1, fun p => Real.log (p / (1 - p)), fun l => 1 / (1 + Real.exp (-l))⟩

/-- `IdentityLinkMixin`, `link.py` lines 92-104. -/
def identityLink : Link := ⟨fun _ => True, fun m => m, fun l => l⟩

/-- `constant_learn_rate_one`, `learning_rate.py` lines 8-24. -/
noncomputable def constantLearnRateOne (_iteration _maximal : ℝ) : ℝ := 1

/-- `linear_learn_rate`, `learning_rate.py` lines 27-45. -/
noncomputable def linearLearnRate (iteration maximal : ℝ) : ℝ := iteration * (1 / maximal)

/-- `saturation_value`, `learning_rate.py` line 64. -/
noncomputable def saturationValue : ℝ := 0.999999999

/-- `logistic_learn_rate`, `learning_rate.py` lines 48-66. -/
noncomputable def logisticLearnRate (iteration maximal : ℝ) : ℝ :=
  let xt := maximal / Real.log ((1 - saturationValue) / (1 + saturationValue))
  (1 / (1 + Real.exp (iteration / xt)) - 0.5) * 2

/-- `half_linear_learn_rate`, `learning_rate.py` lines 69-87. -/
noncomputable def halfLinearLearnRate (iteration maximal : ℝ) : ℝ :=
  min (linearLearnRate iteration (maximal * 0.5)) 1

end CB
