import Verif.Model.FeatureSmooth
import Verif.Model.Regularize
import Verif.Model.Estimators
import Verif.Model.OrthoFit
import Verif.Model.Neutralize

/-!
# Model of the smoothers that `common_smoothers` chooses from

Covers the smoothers of cyclic_boosting/smoothing/onedim.py, multidim.py and extrapolate.py that keep bin values or fit a line, the
group-by smoother, and what each kind of smoother in `SmootherKind` does. Columns of the table in `fit` are lists, one entry per
bin; array expressions on them are functions of the index.
-/

set_option autoImplicit false

namespace CB

section
variable {K : Type*} [Field K] [LinearOrder K] [FloorRing K]

/-- A column as an array expression.
Models: cyclic_boosting/smoothing/onedim.py:155-158,219-220,230-234. -/
def column (l : List K) : ℕ → K := fun i => l.getD i 0

/-- The column of uncertainties (column 2 of the table for one dimension, the last one for several).
Models: cyclic_boosting/smoothing/onedim.py:219-220, cyclic_boosting/smoothing/multidim.py:175,231. -/
def uncColumn (X : List (FitRow K)) : ℕ → K := column (X.map (·.unc))

/-- `regularize_to_error_weighted_mean` as floats: if an uncertainty is 0, its weight is infinite, and unless the values are
returned unchanged the computation ends in `inf / inf` for all of them.
Models: cyclic_boosting/utils.py:825-848. -/
def regularizeToMeanFlt (n : ℕ) (x u : ℕ → K) (prior : Option K) : ℕ → Flt K := fun i =>
  if n < 1 ∨ (prior = none ∧ n = 1) ∨ allclose n x (prior.getD (x 0)) = true then .fin (x i)
  else if (List.range n).any fun j => decide (u j = 0) then .nan
  else .fin (regularizeToMean n x u prior i)

/-- `onedim.PredictingBinValueMixin.predict` for one row and kept values that can be NaN.
Models: cyclic_boosting/smoothing/onedim.py:42-51. -/
def lookupOneDim (v : List (Flt K)) (r : List (Flt K)) : Flt K :=
  match r.headD .nan with
  | .fin x => if 0 ≤ x ∧ rint x < (v.length : ℤ) then v.getD (rint x).toNat .nan else .nan
  | _ => .nan

/-- `multidim.PredictingBinValueMixin.predict` for one row and kept values that can be NaN.
Models: cyclic_boosting/smoothing/multidim.py:41-60. -/
def lookupMultiDim (nBins : List ℕ) (v : List (Flt K)) (r : List (Flt K)) : Flt K :=
  if (List.zipWith validFloor r nBins).all id then v.getD (dotRow r (binSteps nBins).tail) .nan else .nan

/-- `onedim.WeightedMeanSmoother`.
Models: cyclic_boosting/smoothing/onedim.py:42-51, 216-220. -/
def weightedMean1 (prior : Option K) : Smoother K (List (Flt K)) where
  fit X y := (List.range y.length).map (regularizeToMeanFlt y.length (column y) (uncColumn X) prior)
  predict v rows := rows.map (lookupOneDim v)

/-- `multidim.WeightedMeanSmoother`.
Models: cyclic_boosting/smoothing/multidim.py:41-60, 226-231. -/
def weightedMeanMultiDim (prior : Option K) : Smoother K (List ℕ × List (Flt K)) where
  fit X y :=
    ((setBinInfo X).nBins, (List.range y.length).map (regularizeToMeanFlt y.length (column y) (uncColumn X) prior))
  predict st rows := rows.map (lookupMultiDim st.1 st.2)

/-- `onedim.WeightedMeanSmootherNeighbors`; with fewer than three bins it is the weighted mean of all of them.
Models: cyclic_boosting/smoothing/onedim.py:42-51, 223-234. -/
def weightedMeanNeighbors1 : Smoother K (List (Flt K)) where
  fit X y := (List.range y.length).map
    (if y.length < 3 then regularizeToMeanFlt y.length (column y) (uncColumn X) none
      else regularizeToMeanNeighbors y.length (column y) (uncColumn X))
  predict v rows := rows.map (lookupOneDim v)

/-- The denominator in `linear_regression`.
Models: cyclic_boosting/utils.py:1010-1015. -/
def linearDet (n : ℕ) (x w : ℕ → K) : K :=
  (∑ i ∈ Finset.range n, w i) * (∑ i ∈ Finset.range n, x i ^ 2 * w i)
    - (∑ i ∈ Finset.range n, w i * x i) * (∑ i ∈ Finset.range n, w i * x i)

/-- `LinearExtrapolator`: the fit is intercept and slope; `none` if these are the NaN of `0 / 0` (no bins, or just one: the one
with number 0).
Models: cyclic_boosting/smoothing/extrapolate.py:112-135. -/
def linearExtrapolator (epsilon : K) : Smoother K (Option (K × K)) where
  fit X y :=
    let x := column (X.map fun r => ((r.x.headD 0 : ℕ) : K))
    let w := fun i => 1 / (uncColumn X i ^ 2 + epsilon)
    if linearDet X.length x w = 0 then none else some (linearRegression X.length x (column y) w)
  predict st rows := rows.map fun r =>
    match st, r.headD .nan with
    | none, _ => .nan
    | some st, .fin x => .fin (st.1 + x * st.2)
    | some _, .nan => .nan
    | some st, .pinf => if 0 < st.2 then .pinf else if st.2 < 0 then .ninf else .nan
    | some st, .ninf => if 0 < st.2 then .ninf else if st.2 < 0 then .pinf else .nan

/-- The group of a row of the table in `fit`: all bin numbers but the last.
Models: cyclic_boosting/smoothing/multidim.py:312-314, 321-332. -/
def groupKey (nDim : ℕ) (r : FitRow K) : List ℕ := r.x.take (nDim - 1)

/-- The rows that `GroupBySmoother.fit` keeps: with a weight column (as `GroupBySmootherCB` has it), those of groups of positive
weight.
Models: cyclic_boosting/smoothing/multidim.py:321-329. -/
def groupByRows (nDim : ℕ) (dropEmpty : Bool) (rows : List (FitRow K × K)) : List (FitRow K × K) :=
  if dropEmpty then
    rows.filter fun r => decide (0 < ((rows.filter fun s => groupKey nDim s.1 = groupKey nDim r.1).map fun s => s.1.w).sum)
  else rows

/-- The table for the smoother of one group: last bin number, weight and uncertainty.
Models: cyclic_boosting/smoothing/multidim.py:277-280, 330-332. -/
def groupTable (nDim : ℕ) (rows : List (FitRow K × K)) (key : List ℕ) : List (FitRow K × K) :=
  (rows.filter fun r => groupKey nDim r.1 = key).map fun r => (⟨[r.1.x.getD (nDim - 1) 0], r.1.w, r.1.unc⟩, r.2)

/-- `GroupBySmoother` (`dropEmpty`: with a weight column). Simplification: rows of `predict` are passed one by one to the smoother
of their group; all smoothers of the package predict a row from that row alone.
Models: cyclic_boosting/smoothing/multidim.py:277-348. -/
def groupBySmoother {σ : Type*} (inner : Smoother K σ) (nDim : ℕ) (dropEmpty : Bool) : Smoother K (List (List ℕ × σ)) where
  fit X y :=
    let rows := groupByRows nDim dropEmpty (X.zip y)
    ((rows.map fun r => groupKey nDim r.1).dedup).map fun key =>
      (key, inner.fit ((groupTable nDim rows key).map (·.1)) ((groupTable nDim rows key).map (·.2)))
  predict st rows := rows.map fun r =>
    match st.find? fun p => p.1.map (fun (c : ℕ) => Flt.fin (c : K)) = r.take (nDim - 1) with
    | some p => (inner.predict p.2 [[r.getD (nDim - 1) .nan]]).headD .nan
    | none => .nan

/-- A smoother given by what it predicts after a fit; it remembers the table of the fit.
Models: cyclic_boosting/smoothing/base.py:12-20. -/
def smootherOf (f : List (FitRow K) → List K → List (List (Flt K)) → List (Flt K)) :
    Smoother K (List (FitRow K) × List K) where
  fit X y := (X, y)
  predict st rows := f st.1 st.2 rows

/-- What a smoother predicts after a fit.
Models: cyclic_boosting/smoothing/base.py:12-20. -/
def Smoother.after {σ : Type*} (s : Smoother K σ) (X : List (FitRow K)) (y : List K) (rows : List (List (Flt K))) :
    List (Flt K) := s.predict (s.fit X y) rows

end

/-- `regularize_to_prior_expectation` for a float and a positive uncertainty: NaN is never significant.
Models: cyclic_boosting/utils.py:754-759. -/
noncomputable def regularizeToPriorFlt (value : Flt ℝ) (uncertainty prior threshold : ℝ) : Flt ℝ :=
  match value with
  | .fin v => .fin (regularizeToPrior v uncertainty prior threshold)
  | .nan => .fin prior
  | .pinf => .pinf
  | .ninf => .ninf

/-- `RegularizeToPriorExpectationSmoother` in one dimension.
Models: cyclic_boosting/smoothing/onedim.py:42-51, 151-159. -/
noncomputable def priorExpectation1 (prior threshold : ℝ) : Smoother ℝ (List (Flt ℝ)) where
  fit X y := (List.range y.length).map fun i => regularizeToPriorFlt (.fin (column y i)) (uncColumn X i) prior threshold
  predict v rows := rows.map (lookupOneDim v)

/-- `RegularizeToPriorExpectationSmoother` in several dimensions.
Models: cyclic_boosting/smoothing/multidim.py:41-60, 168-177. -/
noncomputable def priorExpectationMulti (prior threshold : ℝ) : Smoother ℝ (List ℕ × List (Flt ℝ)) where
  fit X y := ((setBinInfo X).nBins,
    (List.range y.length).map fun i => regularizeToPriorFlt (.fin (column y i)) (uncColumn X i) prior threshold)
  predict st rows := rows.map (lookupMultiDim st.1 st.2)

/-- The bin centres as rows for `predict`.
Models: cyclic_boosting/smoothing/onedim.py:502-510, cyclic_boosting/smoothing/multidim.py:260-274. -/
def centres (X : List (FitRow ℝ)) : List (List (Flt ℝ)) := X.map fun r => r.x.map fun (c : ℕ) => Flt.fin (c : ℝ)

/-- `PriorExpectationMetaSmoother` in one dimension: the predictions of another smoother at the bin centres, regularised.
Models: cyclic_boosting/smoothing/onedim.py:497-510. -/
noncomputable def priorExpectationMeta1 {σ : Type*} (sub : Smoother ℝ σ) (prior threshold : ℝ) : Smoother ℝ (List (Flt ℝ)) where
  fit X y := (List.range X.length).map fun i =>
    regularizeToPriorFlt ((sub.after X y (centres X)).getD i .nan) (uncColumn X i) prior threshold
  predict v rows := rows.map (lookupOneDim v)

/-- `OrthogonalPolynomialSmoother` as a smoother for tables; without bins the fit fails and the model predicts NaN.
Models: cyclic_boosting/smoothing/onedim.py:243-264. -/
noncomputable def orthogonalPolynomialSmoother : Smoother ℝ (Option OrthoSmoother) where
  fit X y := orthoSmootherFit X.length (column (X.map fun r => ((r.x.headD 0 : ℕ) : ℝ))) (column y) (uncColumn X)
  predict st rows := rows.map fun r =>
    match st with
    | some s => orthoSmootherPredict s (r.headD .nan)
    | none => .nan

/-- `Neutralize2DMetaSmoother` for a table with bins `(i, j)`, `i < n`, `j < m`, in order: the sub-smoother is fitted with the
neutralised values, and its predictions at the bin centres are kept.
Models: cyclic_boosting/smoothing/multidim.py:368-389. -/
noncomputable def neutralize2D {σ : Type*} (sub : Smoother ℝ σ) : Smoother ℝ (List ℕ × List (Flt ℝ)) where
  fit X y :=
    let nBins := (setBinInfo X).nBins
    let n := nBins.getD 0 0
    let m := nBins.getD 1 0
    let v := neutralizeOneDim n m (fun i j => column y (i * m + j)) (fun i j => uncColumn X (i * m + j))
    let y' := (List.range (n * m)).map fun k => v (k / m) (k % m)
    (nBins, sub.after X y' (centres X))
  predict st rows := rows.map (lookupMultiDim st.1 st.2)

/-- What is left open about the smoothers: the user-defined ones, `scipy.optimize.curve_fit` for the seasonal one, and
`sklearn.isotonic.IsotonicRegression` (by direction; `none` is "auto").
Models: cyclic_boosting/smoothing/onedim.py:359-396, 750-762. -/
structure OpenSmoothers where
  explicit : String → Bool → List (FitRow ℝ) → List ℝ → List (List (Flt ℝ)) → List (Flt ℝ)
  seasonal : Bool → List (FitRow ℝ) → List ℝ → List (List (Flt ℝ)) → List (Flt ℝ)
  isotonic : Option Bool → List (ℝ × ℝ × ℝ) → ℝ → ℝ

/-- What each kind of smoother predicts after a fit; an exception is an empty prediction. The neutral factor, to which the
weighted means are regularised, is 0 in link space.
Models: cyclic_boosting/common_smoothers.py:67-81,133-140,306-337,345-350. -/
noncomputable def kindAfter (O : OpenSmoothers) :
    SmootherKind → List (FitRow ℝ) → List ℝ → List (List (Flt ℝ)) → List (Flt ℝ)
  | .explicit name groupBy => O.explicit name groupBy
  | .weightedMean => (weightedMean1 (some 0)).after
  | .weightedMeanNeighbors => weightedMeanNeighbors1.after
  | .orthogonalPolynomial => orthogonalPolynomialSmoother.after
  | .linearExtrapolator => (linearExtrapolator (1 / 10000)).after
  | .seasonal offsetToZero => O.seasonal offsetToZero
  | .isotonic increasing => (isotonicSmoother (O.isotonic increasing)).after
  | .binValuesOne => binValues1.after
  | .binValuesMany => binValuesMulti.after
  | .weightedMeanMulti => (weightedMeanMultiDim (some 0)).after
  | .groupByCB inner nDim => (groupBySmoother (smootherOf (kindAfter O inner)) nDim true).after
  | .normalization s => (normalizationSmoother (smootherOf (kindAfter O s))).after
  | .regressionType s t => fun X y rows =>
    (regTypePredict (smootherOf (kindAfter O s)) t (regTypeFit (smootherOf (kindAfter O s)) X y) rows).getD []
  | .normalizationRegressionType s t => fun X y rows =>
    (normRegTypePredict (smootherOf (kindAfter O s)) t (normRegTypeFit (smootherOf (kindAfter O s)) X y) rows).getD []

/-- The smoothers of the package, for use as `base` of a fit.
Models: cyclic_boosting/common_smoothers.py:67-81,306-337,345-350. -/
noncomputable def packageSmoothers (O : OpenSmoothers) (kind : SmootherKind) : Smoother ℝ (List (FitRow ℝ) × List ℝ) :=
  smootherOf (kindAfter O kind)

end CB
