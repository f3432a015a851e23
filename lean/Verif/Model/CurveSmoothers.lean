import Verif.Model.BinSmoothers
import Mathlib.Analysis.SpecialFunctions.Trigonometric.Basic

/-!
# Model of the smoothers that fit a curve to the bin values

Covers `SeasonalSmoother`, `SeasonalLassoSmoother`, `PolynomialSmoother`, `LinearSmoother` and the checks of `LSQUnivariateSpline`
in cyclic_boosting/smoothing/onedim.py. `scipy.optimize.curve_fit`, `numpy.polyfit`, the Lasso fit and the splines are arguments.
-/

set_option autoImplicit false

namespace CB

/-- `_seasonality_first_order`; the parameters after `x` as a list.
Models: cyclic_boosting/smoothing/onedim.py:282-283. -/
noncomputable def seasonalityFirst (par : List ℝ) (x : ℝ) : ℝ :=
  par.getD 0 0 + par.getD 1 0 * Real.sin x + par.getD 2 0 * Real.cos x

/-- `_seasonality_second_order`.
Models: cyclic_boosting/smoothing/onedim.py:286-287. -/
noncomputable def seasonalitySecond (par : List ℝ) (x : ℝ) : ℝ :=
  par.getD 0 0 + par.getD 1 0 * Real.sin x + par.getD 2 0 * Real.cos x + par.getD 3 0 * Real.sin (2 * x)
    + par.getD 4 0 * Real.cos (2 * x)

/-- `_seasonality_third_order`.
Models: cyclic_boosting/smoothing/onedim.py:290-299. -/
noncomputable def seasonalityThird (par : List ℝ) (x : ℝ) : ℝ :=
  par.getD 0 0 + par.getD 1 0 * Real.sin x + par.getD 2 0 * Real.cos x + par.getD 3 0 * Real.sin (2 * x)
    + par.getD 4 0 * Real.cos (2 * x) + par.getD 5 0 * Real.sin (3 * x) + par.getD 6 0 * Real.cos (3 * x)

/-- A fit function and its number of parameters, which `curve_fit` reads from the signature.
Models: cyclic_boosting/smoothing/onedim.py:282-299. -/
structure FitFunction where
  parameters : ℕ
  value : List ℝ → ℝ → ℝ

/-- `_choose_default_fit_function`.
Models: cyclic_boosting/smoothing/onedim.py:267-279. -/
noncomputable def chooseFitFunction (order : ℕ) : Except String FitFunction :=
  if order = 1 then .ok ⟨3, seasonalityFirst⟩
  else if order = 2 then .ok ⟨5, seasonalitySecond⟩
  else if order = 3 then .ok ⟨7, seasonalityThird⟩
  else .error "ValueError: The order parameter of the SeasonalSmoother has to be 1, 2 or 3."

/-- `scipy.optimize.curve_fit` for a fit function and points (position, value, uncertainty); `none` is the `TypeError` for fewer
points than parameters.
Models: cyclic_boosting/smoothing/onedim.py:379. -/
abbrev CurveFit := FitFunction → List (ℝ × ℝ × ℝ) → Option (List ℝ)

/-- What `SeasonalSmoother.fit` sets: `frequency_` and, if the fit has converged, `par_`.
Models: cyclic_boosting/smoothing/onedim.py:375-388. -/
structure SeasonalState where
  frequency : ℝ
  par : Option (List ℝ)

/-- `SeasonalSmoother.transform_X` for one entry.
Models: cyclic_boosting/smoothing/onedim.py:372-373. -/
noncomputable def seasonalAngle (frequency x : ℝ) : ℝ := 2 * Real.pi * x * frequency

/-- `SeasonalSmoother` with a fit function `f`. The sine and the cosine of an infinite entry are NaN. Without bins the code fails
(division by zero); here the frequency is 0.
Models: cyclic_boosting/smoothing/onedim.py:359-396. -/
noncomputable def seasonalSmoother (curveFit : CurveFit) (f : FitFunction) (offsetToZero : Bool) (fallback : ℝ) :
    Smoother ℝ SeasonalState where
  fit X y :=
    let frequency := 1 / (X.length : ℝ)
    let data := (List.range X.length).map fun i =>
      (seasonalAngle frequency (column (X.map fun r => ((r.x.headD 0 : ℕ) : ℝ)) i), column y i, uncColumn X i)
    { frequency := frequency
      par := (curveFit f data).map fun par => if offsetToZero then par.set 0 0 else par }
  predict st rows := rows.map fun r =>
    match st.par with
    | none => .fin fallback
    | some par =>
      match r.headD .nan with
      | .fin x => .fin (f.value par (seasonalAngle st.frequency x))
      | _ => .nan

/-- The smoother of seasonal features: `SeasonalSmoother(offset_tozero=...)`, with the default order 1 and fallback value 0.
Models: cyclic_boosting/common_smoothers.py:73-76; cyclic_boosting/smoothing/onedim.py:359. -/
noncomputable def declaredSeasonal (curveFit : CurveFit) (offsetToZero : Bool) :
    List (FitRow ℝ) → List ℝ → List (List (Flt ℝ)) → List (Flt ℝ) :=
  (seasonalSmoother curveFit ⟨3, seasonalityFirst⟩ offsetToZero 0).after

/-- What `SeasonalLassoSmoother.fit` sets: `max_bin` and, unless in fallback mode, the four coefficients of the Lasso fit.
Models: cyclic_boosting/smoothing/onedim.py:432-436, 460-473. -/
structure LassoState where
  maxBin : ℝ
  coef : Option (List ℝ)

/-- `SeasonalLassoSmoother.prepare_X` for one entry.
Models: cyclic_boosting/smoothing/onedim.py:438-446. -/
noncomputable def lassoColumns (maxBin x : ℝ) : List ℝ :=
  let x1 := 2 * Real.pi * x / maxBin
  [Real.sin x1, Real.cos x1, -Real.sin x1, -Real.cos x1]

/-- `SeasonalLassoSmoother`; `lasso` gives the coefficients of `LassoLarsIC(positive=True, fit_intercept=False)`. Simplification:
without bins, or if the last bin has number 0, the code divides by zero; here `maxBin` is 0 and the angle is 0.
Models: cyclic_boosting/smoothing/onedim.py:432-473. -/
noncomputable def seasonalLassoSmoother (lasso : List (List ℝ) → List ℝ → List ℝ) (minDays : ℕ) : Smoother ℝ LassoState where
  fit X y :=
    let maxBin := ((X.getLast?.elim 0 fun r => r.x.headD 0 : ℕ) : ℝ)
    let days := (X.zip y).filter fun d => decide (0 < d.1.w)
    { maxBin := maxBin
      coef := if days.length < minDays then none
        else some (lasso (days.map fun d => lassoColumns maxBin ((d.1.x.headD 0 : ℕ) : ℝ)) (days.map (·.2))) }
  predict st rows := rows.map fun r =>
    match st.coef with
    | none => .fin 0
    | some coef =>
      match r.headD .nan with
      | .fin x => .fin (List.zipWith (· * ·) (lassoColumns st.maxBin x) coef).sum
      | _ => .nan

/-- `numpy.polyfit` for a degree and points (position, value, weight): coefficients, highest power first.
Models: cyclic_boosting/smoothing/onedim.py:611-616. -/
abbrev PolyFit := ℕ → List (ℝ × ℝ × ℝ) → List ℝ

/-- `numpy.polyval`: Horner's scheme.
Models: cyclic_boosting/smoothing/onedim.py:619-623 (numpy's definition). -/
def polyval (coefficients : List ℝ) (x : ℝ) : ℝ := coefficients.foldl (fun acc c => acc * x + c) 0

/-- The points for `polyfit`: position, value and the weight `1.0 / (sigma * sigma)`.
Models: cyclic_boosting/smoothing/onedim.py:608-616, 654-664. -/
noncomputable def polyPoints (X : List (FitRow ℝ)) (y : List ℝ) : List (ℝ × ℝ × ℝ) :=
  (List.range X.length).map fun i =>
    (column (X.map fun r => ((r.x.headD 0 : ℕ) : ℝ)) i, column y i, 1 / (uncColumn X i * uncColumn X i))

/-- `PolynomialSmoother.predict` for fitted coefficients. Simplification: an infinite entry gives NaN; in the code the value is
infinite for some coefficients.
Models: cyclic_boosting/smoothing/onedim.py:619-623. -/
def polyPredict (coefficients : List ℝ) (rows : List (List (Flt ℝ))) : List (Flt ℝ) :=
  rows.map fun r => match r.headD .nan with
    | .fin x => .fin (polyval coefficients x)
    | _ => .nan

/-- `PolynomialSmoother`.
Models: cyclic_boosting/smoothing/onedim.py:605-623. -/
noncomputable def polynomialSmoother (polyfit : PolyFit) (k : ℕ) : Smoother ℝ (List ℝ) where
  fit X y := polyfit k (polyPoints X y)
  predict := polyPredict

/-- `LinearSmoother`.
Models: cyclic_boosting/smoothing/onedim.py:651-672. -/
noncomputable def linearSmoother (polyfit : PolyFit) (fallbackWhenNegativeSlope : Bool) : Smoother ℝ (List ℝ) where
  fit X y :=
    let deg := if X.length ≤ 1 then 0 else 1
    let coefficients := polyfit deg (polyPoints X y)
    if fallbackWhenNegativeSlope = true ∧ coefficients.getD 0 0 < 0 then polyfit 0 (polyPoints X y) else coefficients
  predict := polyPredict

/-- `LSQUnivariateSpline.fit`: the check; `spline` is the fitted spline of `scipy` for points (position, value, weight).
Models: cyclic_boosting/smoothing/onedim.py:690-714. -/
noncomputable def lsqSplineFit {σ : Type*} (spline : List ℝ → ℕ → List (ℝ × ℝ × ℝ) → σ) (knots : List ℝ) (degree : ℕ) (X : List (FitRow ℝ))
    (y : List ℝ) : Except String σ :=
  if degree ≤ 5 ∧ degree < X.length then
    .ok (spline knots degree ((List.range X.length).map fun i =>
      (column (X.map fun r => ((r.x.headD 0 : ℕ) : ℝ)) i, column y i, column (X.map (·.w)) i)))
  else .error "ValueError: Spline degree must be <= 5 and less than the available data points"

end CB
