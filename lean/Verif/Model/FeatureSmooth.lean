import Verif.Model.SmootherChoice
import Verif.Model.Training

/-!
# Model of how a feature uses its smoother during training

Covers `Feature._get_data_for_smoother`, `Feature.update_factors` (the fit of the smoother) and `_predict_factors` at the
bin centers, for the smoothers that `common_smoothers` builds, and the wrapper of the isotonic regression.
-/

set_option autoImplicit false

namespace CB

section
variable {K : Type*} [Field K] [LinearOrder K] [FloorRing K]

/-- What a smoother built by `determine_meta_smoother` predicts for `rows` after a fit on `X`, `y`, given what the
smoothers that are not wrappers do (`base`); `none` is an exception.
Models: cyclic_boosting/smoothing/meta_smoother.py:110-116,183-189,216-223, cyclic_boosting/common_smoothers.py:133-140. -/
def kindPredict {σ : Type*} (base : SmootherKind → Smoother K σ) (kind : SmootherKind) (X : List (FitRow K)) (y : List K)
    (rows : List (List (Flt K))) : Option (List (Flt K)) :=
  match kind with
  | .normalization s =>
    some ((normalizationSmoother (base s)).predict ((normalizationSmoother (base s)).fit X y) rows)
  | .regressionType s t => regTypePredict (base s) t (regTypeFit (base s) X y) rows
  | .normalizationRegressionType s t => normRegTypePredict (base s) t (normRegTypeFit (base s) X y) rows
  | s => some ((base s).predict ((base s).fit X y) rows)

/-- The rows of `X_for_smoother[:-1]` for a feature with `ns` bins in its columns: bin centers, weights and uncertainties.
Models: cyclic_boosting/features.py:193-207. -/
def smootherTable (ns : List ℕ) (weights uncertainties : ℕ → K) : List (FitRow K) :=
  (arangeMulti ns).zipIdx.map fun p => ⟨p.1, weights p.2, uncertainties p.2⟩

/-- The value of the smoother of a feature at the center of the bin with number `b` after a fit on the finite bins; `none`
is a value that is not finite, which `_predict_factors` replaces by the neutral factor.
Models: cyclic_boosting/features.py:248-251, cyclic_boosting/base.py:116-126. -/
def smoothAtCentres {σ : Type*} (base : SmootherKind → Smoother K σ) (kind : SmootherKind) (ns : List ℕ)
    (weights uncertainties values : ℕ → K) : ℕ → Option K := fun b =>
  match kindPredict base kind (smootherTable ns weights uncertainties) ((List.range ns.prod).map values)
      ((arangeMulti ns).map fun c => c.map fun (i : ℕ) => Flt.fin (i : K)) with
  | none => none
  | some l =>
    match l[b]? with
    | some (.fin v) => some v
    | _ => none

/-- The weight that `IsotonicRegressor` passes for a bin with uncertainty `sigma`.
Models: cyclic_boosting/smoothing/onedim.py:752-754. -/
def isotonicWeight (sigma : K) : K :=
  let s := if 0 < sigma then sigma else 1000000000000
  1 / (s * s)

/-- `IsotonicRegressor`. What `sklearn.isotonic.IsotonicRegression` computes from positions, values and weights is left open
(`regression`); a prediction for an entry that is not finite is NaN here.
Models: cyclic_boosting/smoothing/onedim.py:750-762. -/
def isotonicSmoother (regression : List (K × K × K) → K → K) : Smoother K (List (K × K × K)) where
  fit X y := List.zipWith (fun r v => (((r.x.headD 0 : ℕ) : K), v, isotonicWeight r.unc)) X y
  predict st rows := rows.map fun r =>
    match r.headD .nan with
    | .fin x => .fin (regression st x)
    | _ => .nan

end
end CB
