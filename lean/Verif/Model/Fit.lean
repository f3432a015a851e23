import Verif.Model.Baseline
import Verif.Model.Predict
import Verif.Model.FeatureSmooth
import Verif.Model.Location
import Verif.Model.Classifier
import Verif.Model.Gbs

/-!
# Model of a whole fit

Puts the parts together: `create_features`, `_fit_predict` (weights, global scale, prior predictions, binning of the features,
`_fit_main` with the estimator's `calc_parameters` and the smoothers) and `predict` of a fitted estimator. What the smoothers
that are not wrappers compute is left open (`base`), and so are the learning rate and the quantile functions of the gamma and
beta distributions.
-/

set_option autoImplicit false

namespace CB
open Finset

/-- What a subclass of `CyclicBoostingBase` brings along: the link, the valid targets (`_check_y`), the global scale in link
space, whether the prior predictions are shifted to the global scale, `calc_parameters` (factor and uncertainty of a bin from
number of finished iterations, number of samples, bin numbers, target, weights and prediction in link space), `calibrate_to_weighted_mean` (from the weight
sums of the bins and the factors) and `loss` (from number of samples, prediction, target, weights).
Models: cyclic_boosting/base.py:333-339,395-433,1018-1090. -/
structure Estimator where
  link : LinkKind
  valid : ℝ → Prop
  scale : ℕ → (ℕ → ℝ) → (ℕ → ℝ) → Flt ℝ
  shiftPrior : Bool
  parameters : ℕ → ℕ → (ℕ → ℕ) → (ℕ → ℝ) → (ℕ → ℝ) → (ℕ → ℝ) → ℕ → ℝ × ℝ
  calibrate : FeatureCfg → (ℕ → ℝ) → (ℕ → ℝ) → ℕ → ℝ
  loss : ℕ → (ℕ → ℝ) → (ℕ → ℝ) → (ℕ → ℝ) → Flt ℝ

/-- The loss of the base class as a float.
Models: cyclic_boosting/base.py:333-339. -/
noncomputable def squaredLoss (n : ℕ) (prediction y w : ℕ → ℝ) : Flt ℝ :=
  quotientFlt (∑ i ∈ range n, (prediction i - y i) * (prediction i - y i) * w i) (∑ i ∈ range n, w i)

/-- `CBPoissonRegressor`; `gammaincinv` as in `calcFactorFromPosterior`.
Models: cyclic_boosting/regression.py:63-74, 166-187. -/
noncomputable def poissonEstimator (gammaincinv : ℝ → ℝ) : Estimator where
  link := .log
  valid y := 0 ≤ y
  scale := globalScaleLink .log
  shiftPrior := true
  parameters _ n codes y w pred b := poissonCalcParameters gammaincinv n codes w pred (poissonPrecalc n codes y w) b
  calibrate _ _ factors := factors
  loss := squaredLoss

/-- `CBNBinomRegressor`.
Models: cyclic_boosting/regression.py:63-74, 85-163. -/
noncomputable def nbinomEstimator (gammaincinv : ℝ → ℝ) (a c : ℝ) : Estimator where
  link := .log
  valid y := 0 ≤ y
  scale := globalScaleLink .log
  shiftPrior := true
  parameters _ n codes y w pred b := nbinomCalcParameters gammaincinv a c n codes y w pred b
  calibrate _ _ factors := factors
  loss := squaredLoss

/-- `CBClassifier`; `betaPpf` and `coef` as in `classifierCalcParameters`.
Models: cyclic_boosting/classification.py:59-138. -/
noncomputable def classifierEstimator (betaPpf : ℝ → ℝ → ℝ → ℝ) (coef : ℝ → ℝ) : Estimator where
  link := .logit
  valid y := y = 0 ∨ y = 1
  scale := globalScaleLink .logit
  shiftPrior := true
  parameters _ n codes y w pred b := classifierCalcParameters betaPpf coef n codes y w pred b
  calibrate _ _ factors := factors
  loss := squaredLoss

/-- `CBLocationRegressor`.
Models: cyclic_boosting/location.py:163-230. -/
noncomputable def locationEstimator : Estimator where
  link := .identity
  valid _ := True
  scale := globalScaleLink .identity
  shiftPrior := true
  parameters _ n codes y w pred b :=
    let variance := precalcVarianceY n codes y w
    (locationParameter n codes pred y w b,
      Real.sqrt (calcVarianceGeneric n codes (fun i => w i / variance (codes i)) w (1 / 100) b))
  calibrate cfg bw factors b := locCalibrate cfg bw factors b
  loss := squaredLoss

/-- `CBLocPoissonRegressor`.
Models: cyclic_boosting/location.py:19-75. -/
noncomputable def locPoissonEstimator : Estimator where
  link := .identity
  valid _ := True
  scale := globalScaleLink .identity
  shiftPrior := true
  parameters _ n codes y w pred b := locPoissonParameter n codes pred y w b
  calibrate _ _ factors := factors
  loss := squaredLoss

/-- `CBGBSRegressor`; a loss with denominator 0 is NaN here.
Models: cyclic_boosting/GBSregression.py:70-104. -/
noncomputable def gbsEstimator (regalpha : ℝ) : Estimator where
  link := .identity
  valid _ := True
  scale n y w := quotientFlt (∑ i ∈ range n, y i * w i) (∑ i ∈ range n, w i)
  shiftPrior := false
  parameters _ n codes y w pred b :=
    (gbsSummand regalpha n codes y pred w b, Real.sqrt (gbsVariance regalpha n codes y pred w b))
  calibrate _ _ factors := factors
  loss n prediction y w := quotientFlt (gbsLoss n prediction y w).1 (gbsLoss n prediction y w).2

/-- A training set: the table, the number of samples, the target, the weights and the column of prior predictions, if there is
one.
Models: cyclic_boosting/base.py:701-711. -/
structure TrainSet where
  X : Table ℝ
  n : ℕ
  y : ℕ → ℝ
  w : ℕ → ℝ
  prior : Option (ℕ → Flt ℝ)

/-- What is set in the constructor: features with the smoothers chosen for them, what the smoothers do, the learning rate and
the other parameters.
Models: cyclic_boosting/base.py:268-331. -/
structure Setup (σ : Type*) where
  features : List (FeatureSpec × SmootherKind)
  base : SmootherKind → Smoother ℝ σ
  learnRate : ℕ → ℝ
  params : Params ℝ

/-- `create_features` for features without type.
Models: cyclic_boosting/features.py:380-417, 111-116. -/
def createFeatures (choice : Choice) (props : Option (List (String × ℕ))) :
    List (List String) → Except String (List (FeatureSpec × SmootherKind))
  | [] => .ok []
  | group :: groups =>
    match smootherForGroup choice props group with
    | .error e => .error e
    | .ok kind =>
      match createFeatures choice props groups with
      | .error e => .error e
      | .ok rest =>
        let missing := (readFeatureProperty props group Flags.HAS_MISSING).any fun fp =>
          Flags.isSet fp Flags.MISSING_NOT_LEARNED
        .ok ((⟨group, false, missing⟩, kind) :: rest)

section
variable {σ : Type*}

/-- The features bound to the training table.
Models: cyclic_boosting/base.py:677-692. -/
noncomputable def Setup.cfgs (S : Setup σ) (D : TrainSet) : List FeatureCfg := S.features.map fun f => f.1.cfg D.X D.n

/-- What training calls: `calc_parameters`, the smoothers, the learning rate, `calibrate_to_weighted_mean` and the loss.
Models: cyclic_boosting/base.py:333-350,649-675, features.py:151-258. -/
noncomputable def Setup.oracle (S : Setup σ) (E : Estimator) (D : TrainSet) : Oracle ℝ where
  estimate it i pred _ b :=
    match S.features[i]? with
    | some f => (E.parameters it D.n (f.1.cfg D.X D.n).bin D.y D.w pred.factors b).1
    | none => 0
  smooth it i pred _ unfitted :=
    match S.features[i]? with
    | some f => smoothAtCentres S.base f.2 (bindData D.X D.n f.1.group none).2 (binSum D.n (f.1.cfg D.X D.n).bin D.w)
        (fun b => (E.parameters it D.n (f.1.cfg D.X D.n).bin D.y D.w pred.factors b).2) unfitted
    | none => fun _ => none
  learnRate := S.learnRate
  calibrate _ i fs :=
    match S.features[i]? with
    | some f => E.calibrate (f.1.cfg D.X D.n) (binSum D.n (f.1.cfg D.X D.n).bin D.w) fs.factors
    | none => fs.factors
  loss pred := E.loss D.n (fun s => E.link.toLink.unlink (pred.factors s)) D.y D.w

/-- A fitted estimator.
Models: cyclic_boosting/base.py:713-776. -/
structure FittedModel where
  link : LinkKind
  scale : Flt ℝ
  offset : Flt ℝ
  features : List (FittedFeature ℝ)
  iterations : ℕ

/-- The ways `fit` can end without a model. `notFinite`: the global scale is not a number (no samples, no weight, or outside the
range of the link); the code goes on with NaN or raises.
Models: cyclic_boosting/base.py:333-339,484-500,701-711. -/
inductive FitErr where
  | target
  | notFinite
  | training (e : TErr)
  deriving DecidableEq, Repr

/-- The offset of the prior predictions; without a column it is not used.
Models: cyclic_boosting/base.py:309, 410-433, GBSregression.py:93-96, generic_loss.py:359-407. -/
noncomputable def Estimator.offset (E : Estimator) (D : TrainSet) : Flt ℝ :=
  match D.prior with
  | none => .fin 0
  | some prior => if E.shiftPrior then priorOffsetFrom E.link (E.scale D.n D.y D.w) D.n prior D.w else .fin 0

/-- The parameters of training: the clipping is done for the logarithmic link.
Models: cyclic_boosting/base.py:590-592. -/
noncomputable def Setup.paramsFor (S : Setup σ) (E : Estimator) : Params ℝ :=
  { S.params with clip := decide (E.link = .log) }

open Classical in
/-- `fit`; `none` means that `fuel` iterations were not enough (see C21 for a bound).
Models: cyclic_boosting/base.py:694-711,818-830. -/
noncomputable def Setup.fit (S : Setup σ) (E : Estimator) (D : TrainSet) (fuel : ℕ) : Option (Except FitErr FittedModel) :=
  if ∀ i < D.n, E.valid (D.y i) then
    let scale := E.scale D.n D.y D.w
    if scale.isFinite then
      let offset := E.offset D
      let prior := fun s => (priorPrediction E.link scale offset D.prior s).getFin
      match fitMain (S.paramsFor E) (S.oracle E D) (S.cfgs D) prior fuel with
      | none => none
      | some (.error e) => some (.error (.training e))
      | some (.ok r) => some (.ok
          { link := E.link
            scale := scale
            offset := offset
            features := fittedFeatures D.X D.n (S.features.map (·.1)) r.factors
            iterations := r.iterations })
    else some (.error .notFinite)
  else some (.error .target)

end

/-- `predict` for the sample `s` of a table with prior prediction column `prior` (before the clip of `CBLocPoissonRegressor`
and the threshold of `CBClassifier`).
Models: cyclic_boosting/base.py:446-455,843-878. -/
noncomputable def FittedModel.predict (m : FittedModel) (prior : Option (ℕ → Flt ℝ)) (X : Table ℝ) (s : ℕ) : ℝ :=
  m.link.toLink.unlink
    ((predictExtended (fun s => (priorPrediction m.link m.scale m.offset prior s).getFin) m.features X).factors s)

end CB
