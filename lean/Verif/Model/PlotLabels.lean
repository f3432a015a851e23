import Verif.Model.Predict
import Verif.Model.Binning

/-!
# Model of the x axis of factor plots

Which value is written under which bin in the plot of the factors of a one-dimensional feature. Drawing itself is not modelled.

Simplification: exact numbers instead of float64.
-/

set_option autoImplicit false

namespace CB

variable {K : Type*} [Field K] [LinearOrder K]

/-- `get_bin_bounds(binners, feat_group)`; each binner is given by its dictionary `get_feature_bin_boundaries()`, whose values are the two
columns of `bins_and_cdfs`. Later entries replace earlier ones.
Models: cyclic_boosting/utils.py:933-953, binning/bin_number_transformer.py:212-213. -/
def binBounds (binners : Option (List (List (String × Option (List K × List K))))) (name : String) : Option (List K) :=
  match binners with
  | none => none
  | some bs =>
    match bs.flatten.reverse.find? fun e => e.1 == name with
    | some (_, some table) => some table.1
    | _ => none

/-- `np.round(x, 5)`.
Models: cyclic_boosting/plots/_1dplots.py:30 (numpy's definition). -/
def round5 [FloorRing K] (x : K) : K := (rint (x * 100000) : K) / 100000

/-- The labels of `_get_x_axis(factors, bin_bounds, is_continuous)`.
Models: cyclic_boosting/plots/_1dplots.py:24-35. -/
def xLabels [FloorRing K] (bounds : Option (List K)) (continuous : Bool) : Option (List K) :=
  bounds.map fun bs =>
    if continuous then List.zipWith (fun a b => round5 ((a + b) / 2)) bs.dropLast bs.tail else bs.tail

/-- `x_axis_range` in `plot_factor_1d`: one position per factor; the last one, of the bin for missing values, is only kept for features
with a flag for missing values.
Models: cyclic_boosting/plots/_1dplots.py:34, 287-296. -/
def xPositions (nFactors : ℕ) (showsMissing : Bool) : List K :=
  (List.range (if showsMissing then nFactors else if nFactors > 1 then nFactors - 1 else nFactors)).map fun i : ℕ => (i : K)

/-- The ticks that `_plot_axes` sets on the x axis: positions with labels (`none` is the empty label). Without labels matplotlib chooses
the ticks (empty list here); numbers of positions and labels that differ make matplotlib raise.
Models: cyclic_boosting/plots/_1dplots.py:154-170. -/
def xTicks (positions : List K) (labels : Option (List K)) (continuous : Bool) : Except String (List (K × Option K)) :=
  let positions := if continuous then positions.map (· - 1 / 2) else positions
  match labels with
  | none => .ok []
  | some labels =>
    let labels : List (Option K) := labels.map some
    let labels := if positions.length = labels.length + 1 then labels ++ [none] else labels
    if positions.length = labels.length then .ok (positions.zip labels) else .error "ValueError"

/-- Where `_plot_smoothed_factors` draws the factors; it gets the positions as `_plot_axes` has changed them in place.
Models: cyclic_boosting/plots/_1dplots.py:161-163, 100-106. -/
def smoothedPositions (positions : List K) (continuous : Bool) : List K :=
  if continuous then
    let shifted := positions.map (· - 1 / 2)
    List.zipWith (fun a b => (a + b) / 2) shifted (shifted.tail ++ [shifted.getLastD 0 + 1])
  else positions

end CB
