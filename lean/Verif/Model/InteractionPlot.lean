import Mathlib.Analysis.SpecialFunctions.Log.Basic
import Mathlib.Algebra.BigOperators.Group.Finset.Basic

/-!
# Model of the plot of a feature with two columns

`plot_factor_2d`: the images of the deviations and of the factors, and the two marginal distributions. The array of the bin weights is that of
the feature: `np.reshape(weights[:-1], ...)` is a view of it, so that writing into it changes the feature. Simplifications: the drawing itself
and the axes are left out (`Verif/Model/PlotAxes.lean` has the axes), all numbers are finite, and the quotient of an empty row (0 divided by 0)
is a number.
-/

set_option autoImplicit false

open Finset

namespace CB

/-- `w1 = np.reshape(weights[:-1], n_bins_finite); w1[w1 == 0.0] = 1.0`: the weights of the feature afterwards.
Models: cyclic_boosting/plots/_2dplots.py:170-171. -/
noncomputable def fillEmpty (weights : List ℝ) : List ℝ :=
  weights.dropLast.map (fun w => if w = 0 then 1 else w) ++ weights.drop (weights.length - 1)

/-- Entry `(i, j)` of `np.reshape(xs[:-1], (n, m))`.
Models: cyclic_boosting/plots/_2dplots.py:126-130,170. -/
noncomputable def gridAt (m : ℕ) (xs : List ℝ) (i j : ℕ) : ℝ := xs.getD (i * m + j) 0

/-- `f` of `plot_marginal(1)`: one value for every bin of the first column.
Models: cyclic_boosting/plots/_2dplots.py:172-175. -/
noncomputable def firstMarginal (n m : ℕ) (weights xs : List ℝ) : List ℝ :=
  (List.range n).map fun i => Real.log ((∑ j ∈ range m, gridAt m weights i j * Real.exp (gridAt m xs i j)) / ∑ j ∈ range m, gridAt m weights i j)

/-- `f` of `plot_marginal(0)`: one value for every bin of the second column.
Models: cyclic_boosting/plots/_2dplots.py:172-175. -/
noncomputable def secondMarginal (n m : ℕ) (weights xs : List ℝ) : List ℝ :=
  (List.range m).map fun j => Real.log ((∑ i ∈ range n, gridAt m weights i j * Real.exp (gridAt m xs i j)) / ∑ i ∈ range n, gridAt m weights i j)

/-- `extremal_factor`, or 1 without finite bins; the limits of the colours are its negative and itself.
Models: cyclic_boosting/plots/_2dplots.py:123-124,132-142. -/
noncomputable def extremalFactor (xs : List ℝ) : ℝ :=
  match xs.dropLast.max?, xs.dropLast.min? with
  | some top, some bottom => max |top| |bottom|
  | _, _ => 1

/-- What is drawn, and the weights of the feature afterwards.
Models: cyclic_boosting/plots/_2dplots.py:88-221. -/
structure InteractionPlot where
  colorLimit : ℝ
  first : List ℝ
  second : List ℝ
  weightsAfter : List ℝ

/-- `plot_factor_2d` with the factors of the feature, whose first column has `n` finite bins and whose second has `m`. `none`: ValueError,
because the number of entries does not fit. Without bins of the first column there are no marginal distributions.
Models: cyclic_boosting/plots/_2dplots.py:88-221. -/
noncomputable def drawInteraction (n m : ℕ) (weights factors : List ℝ) : Option InteractionPlot :=
  if factors.dropLast.length = n * m then
    if n = 0 then some ⟨extremalFactor factors, [], [], weights⟩
    else if weights.dropLast.length = n * m then
      let once := fillEmpty weights
      let twice := fillEmpty once
      some ⟨extremalFactor factors, firstMarginal n m once factors, secondMarginal n m twice factors, twice⟩
    else none
  else none

end CB
