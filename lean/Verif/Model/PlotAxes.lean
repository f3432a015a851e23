import Mathlib.Data.List.MinMax
import Mathlib.Algebra.Order.Floor.Defs
import Mathlib.Algebra.Order.Floor.Semiring
import Mathlib.Algebra.Order.Floor.Ring
import Mathlib.Analysis.SpecialFunctions.Log.Basic
import Verif.Model.Flt

/-!
# Model of the axes of analysis plots

The functions of `cyclic_boosting/plots` that determine which range a plot shows and how histograms of factors are binned. Drawing itself is not modelled.

Simplification: exact numbers instead of float64; all numbers that are plotted are finite.
-/

set_option autoImplicit false

namespace CB

variable {K : Type*} [Field K] [LinearOrder K]

/-- `while distance > 20: distance /= 10`; `fuel` bounds the number of divisions (`optimalTicks` gives enough).
Models: cyclic_boosting/plots/_1dplots.py:47-48. -/
def scaleDown : ℕ → K → K
  | 0, distance => distance
  | fuel + 1, distance => if distance > 20 then scaleDown fuel (distance / 10) else distance

/-- The `for` loop over the numbers of ticks per unit.
Models: cyclic_boosting/plots/_1dplots.py:49-53. -/
def tickLoop [FloorRing K] (distance : K) : List ℕ → ℤ
  | [] => 21
  | n :: ns => if 10 < ⌊distance * (n : K)⌋ ∧ ⌊distance * (n : K)⌋ ≤ 20 then ⌊distance * (n : K)⌋ + 1 else tickLoop distance ns

/-- `_get_optimal_number_of_ticks(distance)`.
Models: cyclic_boosting/plots/_1dplots.py:38-53. -/
def optimalTicks [FloorRing K] : Flt K → ℤ
  | .fin distance => if distance < 1 then 21 else tickLoop (scaleDown ⌈distance⌉.toNat distance) [20, 10, 5, 4, 2, 1]
  | _ => 21

/-- `np.linspace(a, b, n)` for at least two points.
Models: cyclic_boosting/plots/_1dplots.py:77, _2dplots.py:75. -/
def linspace (a b : K) (n : ℕ) : List K := (List.range n).map fun i : ℕ => a + (i : K) * ((b - a) / ((n - 1 : ℕ) : K))

/-- The lowest and the highest value that the axis has to show (`none`: index or shape error).
Models: cyclic_boosting/plots/_1dplots.py:60-69. -/
def axisExtent (factors : List K) (uncertainties : Option (List K × List K)) : Option (K × K) :=
  match factors.getLast? with
  | none => none
  | some last =>
    if factors.dropLast.length > 0 then
      match uncertainties with
      | some (lower, upper) =>
        if lower.dropLast.length = factors.dropLast.length ∧ upper.dropLast.length = factors.dropLast.length then
          match (List.zipWith (fun f u => f - u) factors.dropLast lower.dropLast).min?,
            (List.zipWith (fun f u => f + u) factors.dropLast upper.dropLast).max? with
          | some lo, some hi => some (min lo last, max hi last)
          | _, _ => none
        else none
      | none =>
        match factors.min?, factors.max? with
        | some lo, some hi => some (lo, hi)
        | _, _ => none
    else some (last - 1 / 2, last + 1 / 2)

/-- The ticks of `_get_y_axis(factors, uncertainties)`.
Models: cyclic_boosting/plots/_1dplots.py:56-79. -/
def yAxis [FloorRing K] (factors : List K) (uncertainties : Option (List K × List K)) : Option (List K) :=
  match axisExtent factors uncertainties with
  | none => none
  | some (lo, hi) => some (linspace (⌊lo⌋ : K) (⌈hi⌉ : K) (optimalTicks (.fin ((⌈hi⌉ : K) - (⌊lo⌋ : K)))).toNat)

/-- The y axis of `plot_factor_1d`: the first two factors are replaced by the lowest and the highest value that is plotted. `curves` are
the values of target and prediction in the bins, if they are plotted.
Models: cyclic_boosting/plots/_1dplots.py:266-284. -/
def yAxis1d [FloorRing K] (factors smoothed curves : List K) (uncertainties : List K × List K) (includeErrors : Bool) : Option (List K) :=
  match (factors ++ smoothed ++ curves).min?, (factors ++ smoothed ++ curves).max? with
  | some lo, some hi =>
    if factors.length > 1 then
      yAxis (lo :: hi :: factors.drop 2) (if includeErrors then some uncertainties else none)
    else
      yAxis [lo, hi] (if includeErrors then some (uncertainties.1 ++ uncertainties.1, uncertainties.2 ++ uncertainties.2) else none)
  | _, _ => none

/-- `_factor_plots_y_limits(factor_arr)` with its default arguments: the limits of the plots of loss and factor change.
Models: cyclic_boosting/plots/__init__.py:30-52. -/
def factorPlotsYLimits (factors : List K) : Option (K × K) :=
  match factors.min?, factors.max? with
  | some lo, some hi => some (if lo = 0 then -(1 / 1000) else lo * (1 - 5 / 100), hi * (1 + 5 / 100))
  | _, _ => none

/-- `_guess_suitable_number_of_histogram_bins(n)`.
Models: cyclic_boosting/plots/__init__.py:22-27. -/
noncomputable def histogramBins (n : ℕ) : ℤ := min 30 (max 5 ⌈Real.log n / Real.log 2 + 1⌉)

/-- `bin_boundaries_for_factor_histograms(n_factors, extremal_absolute_factor)`.
Models: cyclic_boosting/plots/_2dplots.py:67-75. -/
noncomputable def histogramBoundaries (nFactors : ℕ) (extremal : ℝ) : List ℝ :=
  let nBins := (histogramBins nFactors).toNat
  let nBins := if nBins % 2 = 0 then nBins + 1 else nBins
  linspace (-extremal) extremal (nBins + 1)

/-- `calc_extent_with_missing_values_box(xmin, xmax)`: middle and right edge of the box.
Models: cyclic_boosting/plots/plot_utils.py:109-132. -/
def missingBox (xmin xmax : K) : K × K :=
  let step := (xmax - xmin) * (5 / 100)
  (xmax + 1 / 2 * step, xmax + step)

/-- `append_extension(file, extension)` for a string.
Models: cyclic_boosting/plots/plot_utils.py:261-283. -/
def appendExtension (file extension : List Char) : List Char := if extension <:+ file then file else file ++ extension

end CB
