import Verif.Model.OrthoFit
import Verif.Model.MetaSmoother
import Verif.Model.Baseline

/-!
# Model of the smoothing of arrays that are limited in place

`OrthogonalPolynomialSmoother.predict` limits the bin numbers to the range of the fit. `np.ascontiguousarray(X[:, 0], dtype=np.float64)` copies
them only if it has to: an array of 64 bit floats whose rows follow each other directly in memory, for example one with a single column, is
limited in place. The meta smoother around it looks at the array afterwards. `Verif/Model/MetaSmoother.lean` has the meta smoothers for
sub-smoothers that do not write into the array. Simplification: one column, and infinite coefficients are left out.
-/

set_option autoImplicit false

namespace CB

/-- A table of bin numbers: its first column, whether its entries are 64 bit floats, and the distance of its rows in memory, in entries.
Models: cyclic_boosting/smoothing/onedim.py:256-260. -/
structure BinArray where
  column : List (Flt ℝ)
  float64 : Bool
  stride : ℕ

/-- `np.ascontiguousarray(X[:, 0], dtype=np.float64)` is a view of `X`.
Models: cyclic_boosting/smoothing/onedim.py:260. -/
def BinArray.shares (a : BinArray) : Bool := a.float64 && (decide (a.column.length ≤ 1) || decide (a.stride = 1))

/-- `x[x < self.minimal_x] = self.minimal_x; x[x > self.maximal_x] = self.maximal_x` for one entry.
Models: cyclic_boosting/smoothing/onedim.py:261-262. -/
noncomputable def clipBin (s : OrthoSmoother) : Flt ℝ → Flt ℝ
  | .fin b =>
    let b := if b < s.minimal then s.minimal else b
    .fin (if s.maximal < b then s.maximal else b)
  | .ninf => .fin (if s.maximal < s.minimal then s.maximal else s.minimal)
  | .pinf => .fin s.maximal
  | .nan => .nan

/-- The polynomial at an entry that has been limited.
Models: cyclic_boosting/smoothing/onedim.py:263, cyclic_boosting/smoothing/orthofit.py:150-168. -/
noncomputable def orthoValueAt (s : OrthoSmoother) : Flt ℝ → Flt ℝ
  | .fin b => .fin (orthoApply s.params s.nDegrees b)
  | _ => if s.nDegrees ≤ 1 then .fin (orthoApply s.params s.nDegrees 0) else .nan

/-- `OrthogonalPolynomialSmoother.predict(X)`: the values, and the table afterwards.
Models: cyclic_boosting/smoothing/onedim.py:256-264. -/
noncomputable def orthoPredictArray (s : OrthoSmoother) (a : BinArray) : List (Flt ℝ) × BinArray :=
  let x := a.column.map (clipBin s)
  (x.map (orthoValueAt s), if a.shares then { a with column := x } else a)

/-- `NormalizationRegressionTypeSmoother.predict(X)` around it, with the regression type of continuous features (`norm` is 0 for
`RegressionTypeSmoother`): the values, and the table afterwards.
Models: cyclic_boosting/smoothing/meta_smoother.py:120-124,155-181,187-189,225-227. -/
noncomputable def interpolatingPredict (s : OrthoSmoother) (nBins : ℕ) (norm : ℝ) (a : BinArray) : List (Flt ℝ) × BinArray :=
  let r := orthoPredictArray s a
  (List.zipWith (fun x v => if selectedInterpolating [nBins] [x] then .nan else v.addFin norm) r.2.column r.1, r.2)

end CB
