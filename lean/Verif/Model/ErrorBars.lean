import Verif.Model.Baseline

/-!
# Model of the values in the plot of a feature with one column

`plot_factor_1d`: the factors and their error bars on the scale of the predictions, and the curves of the mean target and the mean prediction.
Simplification: the factors are finite, and one factor at a time.
-/

set_option autoImplicit false

namespace CB

/-- A factor as it is drawn, with the lengths of its error bar below and above.
Models: cyclic_boosting/plots/_1dplots.py:218-252. -/
structure ShownFactor where
  value : ℝ
  lower : ℝ
  upper : ℝ

/-- A factor and its uncertainty in link space, as they are drawn.
Models: cyclic_boosting/plots/_1dplots.py:222-252. -/
noncomputable def shownFactor (link : LinkKind) (f u : ℝ) : ShownFactor :=
  match link with
  | .identity => ⟨f, u, u⟩
  | .log => ⟨Real.exp f, u, u⟩
  | .logit =>
    let lower := |logitLink.unlink (f - u) - logitLink.unlink f|
    let upper := |logitLink.unlink (f + u) - logitLink.unlink f|
    ⟨logitLink.unlink f, if lower < 0 then 0 else lower, if 1 < upper then 1 else upper⟩

/-- The points of the curve of the mean predictions `p` of all bins, the last one for missing values: `factors` has been shortened if the
feature does not show missing values.
Models: cyclic_boosting/plots/_1dplots.py:287-292,304-312. -/
def shownCurve {α : Type*} (showsMissing : Bool) (p : List α) : List α :=
  let nFactors := if showsMissing then p.length else if 1 < p.length then p.length - 1 else p.length
  if 1 < nFactors then p.dropLast else p

end CB
