import Verif.Model.Fit
import Verif.Model.Importance
import Verif.Model.Link

/-!
# Model of the estimator object: construction, fit, predict, transform, importances

An estimator is an object that can be fitted several times. Its attributes are set in the constructor and overwritten by `fit`;
`fit` may raise at several points and leaves the attributes as they are then.

Simplifications: the target has as many entries as the table has rows; missing columns of features are noticed before training
(in the code when the first of them is bound); sets of columns are lists.
-/

set_option autoImplicit false

namespace CB

/-- A data frame: the names of its columns, its entries and its number of rows. Entries of columns that are not there are never
read.
Models: cyclic_boosting/utils.py:79-108. -/
structure DataFrame where
  columns : List String
  X : Table ℝ
  n : ℕ

/-- The arguments of the constructor. `learnRate` maps the number of the iteration, starting with 1, to the learning rate.
Models: cyclic_boosting/base.py:268-285. -/
structure Config (σ : Type*) where
  groups : Option (List (List String))
  props : Option (List (String × ℕ))
  choice : Choice
  weightColumn : Option String
  priorColumn : Option String
  base : SmootherKind → Smoother ℝ σ
  learnRate : Option (ℕ → ℝ)
  params : Params ℝ
  outputColumn : Option String

/-- `broken`: `fit` raised after the features had been created anew; what they predict then is not modelled.
Models: cyclic_boosting/base.py:694-711, 818-832. -/
inductive Status where
  | unfitted
  | fitted (m : FittedModel)
  | broken

/-- The attributes `feature_groups`, `features`, the state of the features and `feature_importances`. `features` is `None` only
before the constructor has called `_init_features`.
Models: cyclic_boosting/base.py:293-331. -/
structure EstimatorObject where
  groups : Option (List (List String))
  features : Option (List (FeatureSpec × SmootherKind))
  status : Status
  importances : List (List String × ℝ)

/-- Exceptions.
Models: cyclic_boosting/base.py:694-711, 818-878, 937-949. -/
inductive ApiErr where
  | valueError
  | keyError
  | notFitted
  | training (e : FitErr)
  deriving DecidableEq, Repr

section
variable {σ : Type*}

/-- `_check_parameters` and `_init_features`: no groups at all means no features for the time being.
Models: cyclic_boosting/base.py:287-331, 439-444, 937-939, features.py:404-405. -/
def Config.construct (C : Config σ) : Except ApiErr EstimatorObject :=
  if C.groups = some [] then .error .valueError
  else
    match createFeatures C.choice C.props (C.groups.getD []) with
    | .error _ => .error .valueError
    | .ok features => .ok ⟨C.groups, some features, .unfitted, []⟩

/-- `_init_default_feature_groups`: each column is a feature, except for the prior prediction column and the weight column.
Models: cyclic_boosting/base.py:381-393, binning/ecdf_transformer.py:349-361. -/
def Config.defaultGroups (C : Config σ) (F : DataFrame) : List (List String) :=
  let exclude := C.priorColumn.toList ++ C.weightColumn.toList
  (F.columns.filter fun c => !exclude.contains c).map fun c => [c]

/-- The learning rate: with hierarchical features it is always 1, otherwise half-linear by default.
Models: cyclic_boosting/base.py:325-331, 348-350. -/
noncomputable def Config.rate (C : Config σ) (iteration : ℕ) : ℝ :=
  if C.params.hierarchical.isSome then constantLearnRateOne iteration C.params.maximalIterations
  else
    match C.learnRate with
    | some rate => rate iteration
    | none => halfLinearLearnRate iteration C.params.maximalIterations

/-- What training needs of the configuration.
Models: cyclic_boosting/base.py:287-331. -/
noncomputable def Config.setup (C : Config σ) (features : List (FeatureSpec × SmootherKind)) : Setup σ :=
  ⟨features, C.base, C.rate, C.params⟩

/-- The prior prediction column.
Models: cyclic_boosting/base.py:410-411, 446-450. -/
def Config.prior (C : Config σ) (F : DataFrame) : Option (ℕ → Flt ℝ) := C.priorColumn.map fun c s => F.X s c

/-- The training set: `_init_weight_column` and the prior prediction column. Simplification: weights are finite.
Models: cyclic_boosting/base.py:352-367, 410-411. -/
noncomputable def Config.trainSet (C : Config σ) (F : DataFrame) (y : ℕ → ℝ) : TrainSet :=
  ⟨F.X, F.n, y, initWeights (C.weightColumn.map fun c s => (F.X s c).getFin), C.prior F⟩

/-- Are the columns there (otherwise `get_X_column` raises a `KeyError`)?
Models: cyclic_boosting/utils.py:105-108. -/
def DataFrame.has (F : DataFrame) (columns : List String) : Bool := columns.all fun c => F.columns.contains c

/-- The columns of features.
Models: cyclic_boosting/base.py:1082-1084. -/
def featureColumns (features : List (FeatureSpec × SmootherKind)) : List String := features.flatMap fun f => f.1.group

/-- `required_columns`; in the code a set.
Models: cyclic_boosting/base.py:1073-1086. -/
def Config.requiredColumns (C : Config σ) (o : EstimatorObject) : List String :=
  C.weightColumn.toList ++ C.priorColumn.toList ++ featureColumns (o.features.getD [])

/-- The importances of the features of a model for its training table.
Models: cyclic_boosting/base.py:970-974, features.py:276-279. -/
noncomputable def modelImportances (F : DataFrame) (m : FittedModel) : List (List String × List ℕ × ℕ × (ℕ → ℝ)) :=
  m.features.map fun f => (f.group, (bindData F.X F.n f.group none).1, f.nFinite + 1, f.factors)

/-- The feature groups that a fit uses: default groups are made if there are none yet.
Models: cyclic_boosting/base.py:381-393, 706-707. -/
def EstimatorObject.groupsFor (o : EstimatorObject) (C : Config σ) (F : DataFrame) : List (List String) :=
  match o.groups with
  | some groups => groups
  | none => C.defaultGroups F

open Classical in
/-- What `fit` does before training: the object with new feature groups and features, or the exception with the object as it is
then. An empty table raises (see `checkLenData`).
Models: cyclic_boosting/base.py:701-711. -/
noncomputable def EstimatorObject.initFit (o : EstimatorObject) (C : Config σ) (E : Estimator) (F : DataFrame) (y : ℕ → ℝ) :
    EstimatorObject × Except ApiErr (List (FeatureSpec × SmootherKind)) :=
  match checkLenData F.n F.n with
  | .error _ => (o, .error .valueError)
  | .ok _ =>
    if ¬ ∀ i < F.n, E.valid (y i) then (o, .error .valueError)
    else if F.has C.weightColumn.toList = false then (o, .error .keyError)
    else
      match createFeatures C.choice C.props (o.groupsFor C F) with
      | .error _ => ({ o with groups := some (o.groupsFor C F) }, .error .valueError)
      | .ok features =>
        ({ o with groups := some (o.groupsFor C F), features := some features, status := .broken },
          if F.has (C.priorColumn.toList ++ featureColumns features) then .ok features else .error .keyError)

/-- `fit`: the object afterwards and whether it raised; `none` if `fuel` iterations are not enough.
Models: cyclic_boosting/base.py:694-711, 748-752, 818-830. -/
noncomputable def EstimatorObject.fit (o : EstimatorObject) (C : Config σ) (E : Estimator) (F : DataFrame) (y : ℕ → ℝ) (fuel : ℕ) :
    Option (EstimatorObject × Except ApiErr Unit) :=
  match o.initFit C E F y with
  | (o, .error e) => some (o, .error e)
  | (o, .ok features) =>
    match (C.setup features).fit E (C.trainSet F y) fuel with
    | none => none
    | some (.error e) => some (o, .error (.training e))
    | some (.ok m) =>
      some ({ o with status := .fitted m, importances := setFeatureImportances o.importances (modelImportances F m) }, .ok ())

/-- `_check_fitted`.
Models: cyclic_boosting/base.py:941-944. -/
def EstimatorObject.checkFitted (o : EstimatorObject) : Except ApiErr Unit :=
  if o.features.isNone then .error .notFitted else .ok ()

/-- `predict`; `none` is behaviour that is not modelled (what the features do that were not fitted successfully).
Models: cyclic_boosting/base.py:839-856. -/
noncomputable def EstimatorObject.predict (o : EstimatorObject) (C : Config σ) (F : DataFrame) : Option (Except ApiErr (ℕ → ℝ)) :=
  match o.checkFitted with
  | .error e => some (.error e)
  | .ok _ =>
    match o.status with
    | .fitted m =>
      if F.has (C.priorColumn.toList ++ m.features.flatMap fun f => f.group) then some (.ok (m.predict (C.prior F) F.X))
      else some (.error .keyError)
    | _ => none

/-- `get_feature_importances`.
Models: cyclic_boosting/base.py:976-988. -/
noncomputable def EstimatorObject.getImportances (o : EstimatorObject) : Except ApiErr (List (String × ℝ)) :=
  match getFeatureImportances o.importances with
  | .error _ => .error .valueError
  | .ok importances => .ok importances

/-- `X[column] = values` for a column that is not there yet.
Models: cyclic_boosting/base.py:866, 877. -/
def DataFrame.addColumn (F : DataFrame) (column : String) (values : ℕ → ℝ) : DataFrame :=
  ⟨F.columns ++ [column], fun s c => if c = column then .fin (values s) else F.X s c, F.n⟩

/-- The check of `fit_transform` and `transform`: there must be an output column, and not in the table.
Models: cyclic_boosting/base.py:859-865, 870-876. -/
def Config.checkOutput (C : Config σ) (F : DataFrame) : Except ApiErr String :=
  match C.outputColumn with
  | none => .error .keyError
  | some column => if column = "" ∨ column ∈ F.columns then .error .keyError else .ok column

/-- The prediction that `_fit_predict` returns.
Models: cyclic_boosting/base.py:747, 818-830. -/
noncomputable def inSamplePrediction (S : Setup σ) (E : Estimator) (D : TrainSet) (fuel : ℕ) : Option (ℕ → ℝ) :=
  let scale := E.scale D.n D.y D.w
  let prior := fun s => (priorPrediction E.link scale (E.offset D) D.prior s).getFin
  match fitMain (S.paramsFor E) (S.oracle E D) (S.cfgs D) prior fuel with
  | some (.ok r) => some fun s => E.link.toLink.unlink (r.prediction.factors s)
  | _ => none

/-- `fit_transform`.
Models: cyclic_boosting/base.py:858-867. -/
noncomputable def EstimatorObject.fitTransform (o : EstimatorObject) (C : Config σ) (E : Estimator) (F : DataFrame) (y : ℕ → ℝ)
    (fuel : ℕ) : Option (EstimatorObject × Except ApiErr DataFrame) :=
  match C.checkOutput F with
  | .error e => some (o, .error e)
  | .ok column =>
    match o.fit C E F y fuel with
    | none => none
    | some (o', .error e) => some (o', .error e)
    | some (o', .ok _) =>
      match inSamplePrediction (C.setup (o'.features.getD [])) E (C.trainSet F y) fuel with
      | none => none
      | some prediction => some (o', .ok (F.addColumn column prediction))

/-- `transform`.
Models: cyclic_boosting/base.py:869-878. -/
noncomputable def EstimatorObject.transform (o : EstimatorObject) (C : Config σ) (F : DataFrame) : Option (Except ApiErr DataFrame) :=
  match C.checkOutput F with
  | .error e => some (.error e)
  | .ok column =>
    match o.predict C F with
    | none => none
    | some (.error e) => some (.error e)
    | some (.ok prediction) => some (.ok (F.addColumn column prediction))

end

end CB
