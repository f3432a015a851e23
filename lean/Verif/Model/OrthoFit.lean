import Verif.Model.Flt
import Mathlib.Algebra.BigOperators.Group.Finset.Basic
import Mathlib.Analysis.SpecialFunctions.Sqrt

set_option autoImplicit false

/-!
# Model of the orthogonal polynomial smoother

Covers cyclic_boosting/smoothing/orthofit.py and `OrthogonalPolynomialSmoother` of
cyclic_boosting/smoothing/onedim.py.

The `n` supporting points are functions `ℕ → ℝ` of the index of the point; the array `parameters` is a function from
its row number. Bin numbers, values and errors in `fit` are finite, errors are not zero.
-/
namespace CB
open Finset

/-- `N_PARAMETERS`.
Models: cyclic_boosting/smoothing/orthofit.py:7. -/
def orthoMaxParameters : ℕ := 21

/-- One row of `parameters`.
Models: cyclic_boosting/smoothing/orthofit.py:58-62, 88-92. -/
structure OrthoRow where
  alpha : ℝ
  beta : ℝ
  gamma : ℝ
  delta : ℝ
  chi2 : ℝ

/-- The local variables of `fit_orthogonal_poly_` that survive a pass of the recursive loop: the two rows of `scratch`,
the number `ii` of the row to be overwritten next to last, and `sum_squared`.
Models: cyclic_boosting/smoothing/orthofit.py:37, 50-56, 65. -/
structure OrthoState where
  scratch : ℕ → ℕ → ℝ
  ii : ℕ
  sumSquared : ℝ

/-- `weights[j] = 1 / y_errors[j]**2`.
Models: cyclic_boosting/smoothing/orthofit.py:15-16. -/
noncomputable def orthoWeights (err : ℕ → ℝ) : ℕ → ℝ := fun j => 1 / (err j * err j)

/-- `if gamma != 0: gamma = 1 / sqrt(gamma)`.
Models: cyclic_boosting/smoothing/orthofit.py:45-46, 79-80. -/
noncomputable def orthoNormalizer (g : ℝ) : ℝ := if g ≠ 0 then 1 / Real.sqrt g else g

/-- The part of `fit_orthogonal_poly_` before the recursive loop: row 0 of `parameters` and the state.
Models: cyclic_boosting/smoothing/orthofit.py:32-65. -/
noncomputable def orthoInit (n : ℕ) (y w : ℕ → ℝ) : OrthoRow × OrthoState :=
  let delta := ∑ j ∈ range n, w j * y j
  let gamma := orthoNormalizer (∑ j ∈ range n, w j)
  let delta := delta * gamma
  let sumSquared := ∑ k ∈ range n, w k * (y k - gamma * delta) * (y k - gamma * delta)
  (⟨0, 0, gamma, delta, sumSquared⟩, ⟨fun r _ => if r = 0 then gamma else 0, 1, sumSquared⟩)

/-- One pass of the recursive loop: row `k` of `parameters` and the new state.
Models: cyclic_boosting/smoothing/orthofit.py:67-92. -/
noncomputable def orthoStep (n : ℕ) (x y w : ℕ → ℝ) (st : OrthoState) : OrthoRow × OrthoState :=
  let ii := 3 - st.ii
  let alpha := ∑ j ∈ range n, w j * x j * st.scratch (3 - ii - 1) j * st.scratch (3 - ii - 1) j
  let beta := ∑ j ∈ range n, w j * x j * st.scratch (ii - 1) j * st.scratch (3 - ii - 1) j
  let raw := fun j => (x j - alpha) * st.scratch (3 - ii - 1) j - beta * st.scratch (ii - 1) j
  let gamma := orthoNormalizer (∑ j ∈ range n, w j * raw j * raw j)
  let new := fun j => raw j * gamma
  let delta := ∑ j ∈ range n, w j * new j * y j
  let sumSquared := max 0 (st.sumSquared - delta * delta)
  (⟨alpha, beta, gamma, delta, sumSquared⟩, ⟨Function.update st.scratch (ii - 1) new, ii, sumSquared⟩)

/-- Row `k` of `parameters` and the state after it was written.
Models: cyclic_boosting/smoothing/orthofit.py:26-95. Simplification: the number in `parameters[0, 1]` and the NaN in
`parameters[0, 0]`, which no function reads, are left out. -/
noncomputable def orthoRun (n : ℕ) (x y w : ℕ → ℝ) : ℕ → OrthoRow × OrthoState
  | 0 => orthoInit n y w
  | k + 1 => orthoStep n x y w (orthoRun n x y w k).2

/-- `parameters` as computed by `fit_orthogonal_poly_`, row by row (the code stores the rows below `n_degrees`).
Models: cyclic_boosting/smoothing/orthofit.py:26-95. -/
noncomputable def orthoParameters (n : ℕ) (x y w : ℕ → ℝ) (k : ℕ) : OrthoRow := (orthoRun n x y w k).1

/-- `n_degrees` returned by `fit_orthogonal_poly_`.
Models: cyclic_boosting/smoothing/orthofit.py:43. -/
def orthoFullDegrees (n : ℕ) : ℕ := min orthoMaxParameters n

/-- The loop of `significant_parameters_` from index `k` on, with `fuel` passes left and the counter `npp`; the result is
`result`, which is `k` if there is no pass left.
Models: cyclic_boosting/smoothing/orthofit.py:106-119. -/
noncomputable def significantLoop (p : ℕ → OrthoRow) (n : ℕ) : ℕ → ℕ → ℕ → ℕ
  | 0, k, _ => k
  | fuel + 1, k, npp =>
    if (p k).chi2 < (n : ℝ) - ((k : ℝ) + 1) then k + 1
    else
      let npp := if (p k).delta ^ 2 < 384 / 100 then npp + 1 else npp
      let npp := if (p k).delta ^ 2 + (p (k - 1)).delta ^ 2 < 6 then npp + 1 else npp
      if 4 ≤ npp then k + 1 else significantLoop p n fuel (k + 1) npp

/-- `significant_parameters_`.
Models: cyclic_boosting/smoothing/orthofit.py:99-119. -/
noncomputable def significantParameters (p : ℕ → OrthoRow) (nDegrees n : ℕ) : ℕ :=
  if nDegrees < 3 then nDegrees else significantLoop p n (nDegrees - 2) 2 0

/-- `custom_clip`.
Models: cyclic_boosting/smoothing/orthofit.py:123-129. -/
def customClip (value lower upper : ℕ) : ℕ :=
  if lower ≤ value ∧ value ≤ upper then value else if value < lower then lower else upper

/-- `reduce_to_signifcant_parameters`; `int(n * 0.2)` is the integral part of a fifth.
Models: cyclic_boosting/smoothing/orthofit.py:133-147. -/
def reduceParameters (nSignificant nDegrees n : ℕ) : ℕ :=
  let m := min nDegrees nSignificant
  if m = n then (if 2 < n then customClip (n / 5) 2 orthoMaxParameters else 1) else m

/-- `cy_orthogonal_poly_fit_equidistant`: `parameters` and the number of parameters to be used.
Models: cyclic_boosting/smoothing/orthofit.py:11-22. -/
noncomputable def orthoPolyFit (n : ℕ) (x y err : ℕ → ℝ) : (ℕ → OrthoRow) × ℕ :=
  let p := orthoParameters n x y (orthoWeights err)
  let full := orthoFullDegrees n
  (p, reduceParameters (significantParameters p full n) full n)

/-- The local variables of `cy_apply_orthogonal_poly_fit_equidistant` for one bin number.
Models: cyclic_boosting/smoothing/orthofit.py:157-160. -/
structure OrthoEval where
  values : ℕ → ℝ
  j : ℕ
  estimate : ℝ

/-- One pass of the inner loop of `cy_apply_orthogonal_poly_fit_equidistant`.
Models: cyclic_boosting/smoothing/orthofit.py:161-166. -/
def orthoEvalStep (p : ℕ → OrthoRow) (b : ℝ) (s : OrthoEval) (k : ℕ) : OrthoEval :=
  let j := 3 - s.j
  let v := ((b - (p k).alpha) * s.values (2 - j) - (p k).beta * s.values (j - 1)) * (p k).gamma
  ⟨Function.update s.values (j - 1) v, j, s.estimate + (p k).delta * v⟩

/-- `cy_apply_orthogonal_poly_fit_equidistant` for one bin number.
Models: cyclic_boosting/smoothing/orthofit.py:151-168. -/
def orthoApply (p : ℕ → OrthoRow) (nDegrees : ℕ) (b : ℝ) : ℝ :=
  ((List.range' 1 (nDegrees - 1)).foldl (orthoEvalStep p b)
    ⟨fun r => if r = 0 then (p 0).gamma else 0, 1, (p 0).gamma * (p 0).delta⟩).estimate

/-- `OrthogonalPolynomialSmoother` after `fit`.
Models: cyclic_boosting/smoothing/onedim.py:243-254. -/
structure OrthoSmoother where
  minimal : ℝ
  maximal : ℝ
  params : ℕ → OrthoRow
  nDegrees : ℕ

/-- `OrthogonalPolynomialSmoother.fit` on at least one bin (`np.nanmin` of no bins raises ValueError, here `none`).
Models: cyclic_boosting/smoothing/onedim.py:243-254. -/
noncomputable def orthoSmootherFit (n : ℕ) (x y err : ℕ → ℝ) : Option OrthoSmoother :=
  if h : (range n).Nonempty then
    let f := orthoPolyFit n x y err
    some ⟨(range n).inf' h x, (range n).sup' h x, f.1, f.2⟩
  else none

/-- `OrthogonalPolynomialSmoother.predict` for one row: the bin number is limited to the range of the fit. NaN passes
both comparisons, and the result is NaN if the bin number is used at all.
Models: cyclic_boosting/smoothing/onedim.py:256-264. -/
noncomputable def orthoSmootherPredict (s : OrthoSmoother) : Flt ℝ → Flt ℝ
  | .fin b =>
    let b := if b < s.minimal then s.minimal else b
    let b := if s.maximal < b then s.maximal else b
    .fin (orthoApply s.params s.nDegrees b)
  | .ninf => .fin (orthoApply s.params s.nDegrees s.minimal)
  | .pinf => .fin (orthoApply s.params s.nDegrees s.maximal)
  | .nan => if s.nDegrees ≤ 1 then .fin (orthoApply s.params s.nDegrees 0) else .nan

end CB
