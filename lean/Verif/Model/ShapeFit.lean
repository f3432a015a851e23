import Verif.Model.QuantileMatching
import Verif.Model.Histogram
import Mathlib.Data.List.Sort

/-!
# Model of the shape fit of the extended quantile-parameterised distributions

Covers `fit_sinhlogistic_shape` in cyclic_boosting/quantile_matching.py. `scipy.optimize.minimize_scalar` is an argument.
-/

set_option autoImplicit false

namespace CB

noncomputable section

/-- The sorted observations.
Models: cyclic_boosting/quantile_matching.py:665-667, 687 (what numpy and scipy do first). -/
def sortedValues (y : List ℝ) : List ℝ := y.insertionSort (· ≤ ·)

/-- `np.quantile(y, p)`.
Models: cyclic_boosting/quantile_matching.py:665-667. -/
def npQuantile (y : List ℝ) (p : ℝ) : ℝ := interpolatedQuantile p (sortedValues y)

/-- `mstats.mquantiles(y, p)` with its default plotting positions 0.4, 0.4.
Models: cyclic_boosting/quantile_matching.py:687. -/
def mQuantile (y : List ℝ) (p : ℝ) : ℝ :=
  let x := sortedValues y
  if y.length = 1 then x.getD 0 0
  else
    let aleph := y.length * p + (0.4 + p * (1 - 0.4 - 0.4))
    let k := ⌊min (max aleph 1) ((y.length : ℝ) - 1)⌋.toNat
    let gamma := min (max (aleph - k) 0) 1
    (1 - gamma) * x.getD (k - 1) 0 + gamma * x.getD k 0

/-- The levels `np.arange(0.0005, 0.9995, 0.001)`.
Models: cyclic_boosting/quantile_matching.py:685-686. -/
def shapeLevels : List ℝ := (List.range 999).map fun i : ℕ => 0.0005 + i * 0.001

/-- The class chosen by `bound`; `none` is the exception.
Models: cyclic_boosting/quantile_matching.py:662-663, 669-674. -/
def shapeRange (bound : String) (l u : ℝ) : Option Range :=
  if bound = "S" then some (.S l) else if bound = "B" then some (.B l u) else if bound = "U" then some .U else none

/-- `fit_shape`: mean absolute deviation of the quantile function with the given shape from the values `q` at the levels; `none` is NaN.
Models: cyclic_boosting/quantile_matching.py:676-683. -/
def shapeDeviation (r : Range) (j : Option Johnson) (alpha : ℝ) (q : ℝ → ℝ) (shape : ℝ) : Option ℝ :=
  j.map fun j => (shapeLevels.map fun p => |q p - extendedPpf r j (sinhLogistic shape) alpha p|).sum / shapeLevels.length

/-- `fit_sinhlogistic_shape`.
Models: cyclic_boosting/quantile_matching.py:655-689. -/
def fitSinhlogisticShape (minimize : (ℝ → Option ℝ) → ℝ) (alpha l u : ℝ) (bound : String) (y : List ℝ) : Except String ℝ :=
  match shapeRange bound l u with
  | none => .error "Exception: Invalid version."
  | some r =>
    match mkExtended r (npQuantile y alpha) (npQuantile y 0.5) (npQuantile y (1 - alpha)) with
    | .error e => .error e
    | .ok j => .ok (minimize (shapeDeviation r j alpha (mQuantile y)))

end

end CB
