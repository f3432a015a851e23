import Verif.Model.Fit
import Verif.Model.Price
import Verif.Model.Api

/-!
# The price model `CBExponential` in whole fits

The running prediction has two parts, the demand factors and the exponents. Demand features are fitted like those of
`CBNBinomRegressor`, external features by the exponent fit.
-/

set_option autoImplicit false

namespace CB
open Finset

noncomputable section

/-- The arguments that only `CBExponential` has, with the inverse of the incomplete gamma function as in
`calcFactorFromPosterior`.
Models: cyclic_boosting/price.py:218-269. -/
structure PriceArgs where
  externalColumn : String
  exponentColumn : Option String
  varPrior : ℝ
  a : ℝ
  c : ℝ
  gammaincinv : ℝ → ℝ

/-- `external_col`: price ratio minus 1, and 0 where it is missing.
Models: cyclic_boosting/price.py:276-293. -/
def PriceArgs.base (A : PriceArgs) (X : Table ℝ) (s : ℕ) : ℝ := externalBase (X s A.externalColumn)

/-- `weights_external`: the weight, but 0 for samples without price ratio.
Models: cyclic_boosting/price.py:292-296. -/
def PriceArgs.externalWeight (A : PriceArgs) (D : TrainSet) (s : ℕ) : ℝ :=
  (if (D.X s A.externalColumn).isFinite then 1 else 0) * D.w s

/-- `_get_prior_exponent`. Simplification: the entries of the column are finite and not 0.
Models: cyclic_boosting/price.py:298-302. -/
def PriceArgs.exponent (A : PriceArgs) (X : Table ℝ) (s : ℕ) : ℝ :=
  match A.exponentColumn with
  | none => -1
  | some column => (X s column).getFin

/-- `predict_link` of the running prediction.
Models: cyclic_boosting/price.py:461-462. -/
def PriceArgs.linkOf (A : PriceArgs) (X : Table ℝ) (pred : Pred ℝ) (s : ℕ) : ℝ :=
  priceLinkOf (pred.factors s) (A.exponent X s) (pred.exponents s) (A.base X s)

/-- The arguments of `newton_step` for a feature with bin numbers `codes`.
Models: cyclic_boosting/price.py:355-396. -/
def PriceArgs.expoData (A : PriceArgs) (D : TrainSet) (pred : Pred ℝ) (codes : ℕ → ℕ) : ExpoData where
  n := D.n
  y := D.y
  p s := Real.exp (pred.factors s)
  logX := A.base D.X
  k s := priceExponent (A.exponent D.X s) (pred.exponents s)
  prior := A.exponent D.X
  s s :=
    let p := Real.exp (A.linkOf D.X pred s)
    A.externalWeight D s / (A.a * p + A.c * p * p)
  logKPrior s := Real.log (priceExponent (A.exponent D.X s) (pred.exponents s) / A.exponent D.X s)
  varL := A.varPrior
  codes := codes

/-- `_calc_parameters_exponent` and `gamma_momemt_matching` for bin `b`; `nBins` is the number of bins including the missing bin.
(The exponent fit cannot fail, see `C59_fit_total`.)
Models: cyclic_boosting/price.py:335-399,431-445. -/
def PriceArgs.exponentParameters (A : PriceArgs) (D : TrainSet) (pred : Pred ℝ) (codes : ℕ → ℕ) (nBins b : ℕ) : ℝ × ℝ :=
  match exponentBisect nBins (A.expoData D pred codes).step (binSum D.n codes (A.externalWeight D)) with
  | some r =>
    let moments := gammaMoments (r.l b) (r.hessInv b)
    calcFactorsAndUncertainties A.gammaincinv moments.1 moments.2
  | none => (0, 0)

/-- `CBExponential.calc_parameters` for bin `b` of a feature.
Models: cyclic_boosting/price.py:304-333. -/
def PriceArgs.parameters (A : PriceArgs) (D : TrainSet) (pred : Pred ℝ) (f : FeatureSpec) (b : ℕ) : ℝ × ℝ :=
  let cfg := f.cfg D.X D.n
  if f.external then A.exponentParameters D pred cfg.bin (cfg.nFinite + 1) b
  else nbinomCalcParameters A.gammaincinv A.a A.c D.n cfg.bin D.y D.w (A.linkOf D.X pred) b

/-- The weights that a feature is bound with.
Models: cyclic_boosting/base.py:681-684. -/
def PriceArgs.weightsFor (A : PriceArgs) (D : TrainSet) (f : FeatureSpec) : ℕ → ℝ :=
  if f.external then A.externalWeight D else D.w

variable {σ : Type*}

/-- What training calls.
Models: cyclic_boosting/base.py:333-350,649-692, price.py:304-399, features.py:151-258. -/
def Setup.priceOracle (S : Setup σ) (A : PriceArgs) (D : TrainSet) : Oracle ℝ where
  estimate _ i pred _ b :=
    match S.features[i]? with
    | some f => (A.parameters D pred f.1 b).1
    | none => 0
  smooth _ i pred _ unfitted :=
    match S.features[i]? with
    | some f => smoothAtCentres S.base f.2 (bindData D.X D.n f.1.group none).2
        (binSum D.n (f.1.cfg D.X D.n).bin (A.weightsFor D f.1)) (fun b => (A.parameters D pred f.1 b).2) unfitted
    | none => fun _ => none
  learnRate := S.learnRate
  calibrate _ _ fs := fs.factors
  loss pred := squaredLoss D.n (fun s => Real.exp (A.linkOf D.X pred s)) D.y D.w

/-- The scale and the offset of the prior predictions are those of `CBNBinomRegressor`.
Models: cyclic_boosting/base.py:395-455. -/
def PriceArgs.estimator (A : PriceArgs) : Estimator := nbinomEstimator A.gammaincinv A.a A.c

/-- The training of `CBExponential.fit`, together with the in-sample prediction (which the code drops).
Models: cyclic_boosting/price.py:417-429, base.py:701-776. -/
def Setup.priceFitMain (S : Setup σ) (A : PriceArgs) (D : TrainSet) (fuel : ℕ) : Option (Except TErr (FitResult ℝ)) :=
  let E := A.estimator
  let scale := E.scale D.n D.y D.w
  let prior := fun s => (priorPrediction E.link scale (E.offset D) D.prior s).getFin
  fitMain (S.paramsFor E) (S.priceOracle A D) (S.cfgs D) prior fuel

open Classical in
/-- `CBExponential.fit` of a training set.
Models: cyclic_boosting/price.py:417-429, base.py:701-776. -/
def Setup.priceFit (S : Setup σ) (A : PriceArgs) (D : TrainSet) (fuel : ℕ) : Option (Except FitErr FittedModel) :=
  let E := A.estimator
  if ∀ i < D.n, E.valid (D.y i) then
    let scale := E.scale D.n D.y D.w
    if scale.isFinite then
      match S.priceFitMain A D fuel with
      | none => none
      | some (.error e) => some (.error (.training e))
      | some (.ok r) => some (.ok
          { link := E.link
            scale := scale
            offset := E.offset D
            features := fittedFeatures D.X D.n (S.features.map (·.1)) r.factors
            iterations := r.iterations })
    else some (.error .notFinite)
  else some (.error .target)

/-- `CBExponential.predict` of a fitted model for sample `s` of a table.
Models: cyclic_boosting/price.py:401-415. -/
def PriceArgs.predict (A : PriceArgs) (m : FittedModel) (prior : Option (ℕ → Flt ℝ)) (X : Table ℝ) (s : ℕ) : ℝ :=
  priceModelPredict (fun s => (priorPrediction m.link m.scale m.offset prior s).getFin) (A.exponent X)
    (fun s => X s A.externalColumn) m.features X s

/-! ### The estimator object -/

/-- The feature groups of the constructor; the other arguments are those of `Config` (whose `groups` is not used).
Models: cyclic_boosting/price.py:218-269. -/
structure PriceConfig (σ : Type*) where
  standard : Option (List GroupArg)
  external : Option (List GroupArg)
  args : PriceArgs
  config : Config σ

/-- Attributes of an object of class `CBExponential`.
Models: cyclic_boosting/price.py:238-269, base.py:293-331. -/
structure PriceObject where
  ids : List FeatureId
  features : List (FeatureSpec × SmootherKind)
  status : Status
  importances : List (List String × ℝ)

/-- `create_features` for feature ids with types.
Models: cyclic_boosting/features.py:380-417, 111-116. -/
def createTypedFeatures (choice : Choice) (props : Option (List (String × ℕ))) (ids : List FeatureId) :
    Except String (List (FeatureSpec × SmootherKind)) :=
  match createFeatures choice props (ids.map fun i => i.group) with
  | .error e => .error e
  | .ok features =>
    .ok (List.zipWith (fun (i : FeatureId) f => ({ f.1 with external := decide (i.ftype ≠ .standard) }, f.2)) ids features)

/-- The constructor.
Models: cyclic_boosting/price.py:238-269, base.py:287-331, 937-939. -/
def PriceConfig.construct (P : PriceConfig σ) : Except ApiErr PriceObject :=
  match combineFeatureGroups P.standard P.external with
  | .error _ => .error .valueError
  | .ok ids =>
    if ids = [] then .error .valueError
    else
      match createTypedFeatures P.config.choice P.config.props ids with
      | .error _ => .error .valueError
      | .ok features => .ok ⟨ids, features, .unfitted, []⟩

/-- The columns read by `predict`: those of prior predictions, of price ratios, of prior exponents and of the features.
Models: cyclic_boosting/price.py:405-415. -/
def PriceConfig.predictColumns (P : PriceConfig σ) (o : PriceObject) : List String :=
  P.config.priorColumn.toList ++ [P.args.externalColumn] ++ P.args.exponentColumn.toList ++ featureColumns o.features

/-- `required_columns`; in the code a set.
Models: cyclic_boosting/price.py:271-276, base.py:1073-1086. -/
def PriceConfig.requiredColumns (P : PriceConfig σ) (o : PriceObject) : List String :=
  P.config.weightColumn.toList ++ P.config.priorColumn.toList ++ featureColumns o.features ++ [P.args.externalColumn] ++
    P.args.exponentColumn.toList

open Classical in
/-- `_init_fit` and the columns that are read then and later. The features are created anew.
Models: cyclic_boosting/price.py:417-424, base.py:701-711. -/
def PriceObject.initFit (o : PriceObject) (P : PriceConfig σ) (F : DataFrame) (y : ℕ → ℝ) :
    PriceObject × Except ApiErr (List (FeatureSpec × SmootherKind)) :=
  match checkLenData F.n F.n with
  | .error _ => (o, .error .valueError)
  | .ok _ =>
    if ¬ ∀ i < F.n, P.args.estimator.valid (y i) then (o, .error .valueError)
    else if F.has (P.config.weightColumn.toList ++ [P.args.externalColumn]) = false then (o, .error .keyError)
    else
      match createTypedFeatures P.config.choice P.config.props o.ids with
      | .error _ => (o, .error .valueError)
      | .ok features =>
        ({ o with features := features, status := .broken },
          if F.has (P.config.priorColumn.toList ++ P.args.exponentColumn.toList ++ featureColumns features) then .ok features
          else .error .keyError)

/-- `fit`: the object afterwards and whether it raised; `none` if `fuel` iterations are not enough.
Models: cyclic_boosting/price.py:417-429, base.py:701-776. -/
def PriceObject.fit (o : PriceObject) (P : PriceConfig σ) (F : DataFrame) (y : ℕ → ℝ) (fuel : ℕ) :
    Option (PriceObject × Except ApiErr Unit) :=
  match o.initFit P F y with
  | (o, .error e) => some (o, .error e)
  | (o, .ok features) =>
    match (P.config.setup features).priceFit P.args (P.config.trainSet F y) fuel with
    | none => none
    | some (.error e) => some (o, .error (.training e))
    | some (.ok m) =>
      some ({ o with status := .fitted m, importances := setFeatureImportances o.importances (modelImportances F m) }, .ok ())

/-- `predict`; `none` is behaviour that is not modelled (what the features do that were not fitted successfully).
Models: cyclic_boosting/price.py:401-415. -/
def PriceObject.predict (o : PriceObject) (P : PriceConfig σ) (F : DataFrame) : Option (Except ApiErr (ℕ → ℝ)) :=
  match o.status with
  | .fitted m =>
    if F.has (P.predictColumns o) then some (.ok (P.args.predict m (P.config.prior F) F.X)) else some (.error .keyError)
  | _ => none

/-- Exceptions of `fit_transform` of the price model.
Models: cyclic_boosting/price.py:357-362. -/
inductive PriceErr where
  | api (e : ApiErr)
  | attributeError
  deriving DecidableEq, Repr

/-- `fit_transform` is the one of the base class, which calls `_fit_predict` and not `fit`: the running prediction has no
exponents then, which raises an `AttributeError` as soon as the first external feature is reached. Without external features,
or when no iteration is made, the behaviour is not modelled (`none`).
Models: cyclic_boosting/base.py:818-830, 858-867, price.py:357-362. -/
def PriceObject.fitTransform (o : PriceObject) (P : PriceConfig σ) (F : DataFrame) (y : ℕ → ℝ) :
    Option (PriceObject × Except PriceErr DataFrame) :=
  match P.config.checkOutput F with
  | .error e => some (o, .error (.api e))
  | .ok _ =>
    match o.initFit P F y with
    | (o, .error e) => some (o, .error (.api e))
    | (o, .ok features) =>
      if features.any (fun f => f.1.external) && !checkStop P.config.params 0 100 (.fin 100000000000000000000) then
        some (o, .error .attributeError)
      else none

end

end CB
