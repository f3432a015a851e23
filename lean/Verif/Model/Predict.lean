import Verif.Model.Training
import Verif.Model.Multidim

set_option autoImplicit false

/-!
Model of prediction in `cyclic_boosting/base.py` (`predict_extended`, `_predict_factors`, `UpdateMixin`,
`get_feature_contributions`) and of the bin-value smoothers that a fitted model predicts with.

A data set is a function from sample number and column name to a float. Simplification: exact arithmetic; a missing
column (which fails in `get_X_column`) is not modelled.
-/
namespace CB

section
variable {K : Type*} [Field K] [LinearOrder K] [FloorRing K]

/-- A data set: the entry of each sample in each column.
Models: cyclic_boosting/utils.py:79-108. -/
abbrev Table (K : Type*) := ℕ → String → Flt K

/-- `get_X_column(X, feature_group, array_for_1_dim=False)` for one sample, `utils.py` lines 79-108. -/
def Table.row (X : Table K) (group : List String) (s : ℕ) : List (Flt K) := group.map (X s)

/-- `Feature.bind_data` on a table of `n` samples, `features.py` lines 151-173: the combined bin numbers and the numbers of
bins, determined from the data the first time and given afterwards. -/
def bindData (X : Table K) (n : ℕ) (group : List String) (nBins : Option (List ℕ)) : List ℕ × List ℕ :=
  lexBinnos group.length ((List.range n).map (X.row group)) nBins

/-- What `fit` is told about a feature: its columns, whether it is external, MISSING_NOT_LEARNED.
Models: cyclic_boosting/features.py:54-101. -/
structure FeatureSpec where
  group : List String
  external : Bool
  missingNotLearned : Bool

/-- The feature as bound to the training table.
Models: cyclic_boosting/features.py:151-173. -/
def FeatureSpec.cfg (f : FeatureSpec) (X : Table K) (n : ℕ) : FeatureCfg :=
  { group := f.group
    external := f.external
    nFinite := (bindData X n f.group none).2.prod
    bin := fun s => (bindData X n f.group none).1.getD s 0
    missingNotLearned := f.missingNotLearned }

/-- `np.rint`: to the nearest integer, halves to the even one.
Models: cyclic_boosting/smoothing/onedim.py:46 (numpy's definition). -/
def rint (x : K) : ℤ :=
  let f := ⌊x⌋
  let d := x - f
  if d < 1 / 2 then f else if 1 / 2 < d then f + 1 else if f % 2 = 0 then f else f + 1

/-- A feature after `fit`, `features.py` lines 260-268: the numbers of bins of its columns and its final factors, the last
one (number `nBins.prod`) for missing values. -/
structure FittedFeature (K : Type*) where
  group : List String
  external : Bool
  nBins : List ℕ
  factors : ℕ → K

/-- Number of bins without the missing bin, which is the length of `smoothed_y_`.
Models: cyclic_boosting/features.py:129-133. -/
def FittedFeature.nFinite (f : FittedFeature K) : ℕ := f.nBins.prod

/-- `set_n_bins`, `smoothing/base.py` lines 27-38, for the bin centers: largest number in each column plus one. -/
def setNBins (dims : ℕ) (centers : List (List ℕ)) : List ℕ :=
  (List.range dims).map (fun m => (centers.map (fun r => r.getD m 0)).foldl max 0 + 1)

/-- `onedim.BinValuesSmoother.predict`, `smoothing/onedim.py` lines 42-51; `none` is NaN. The test and the index use
`np.rint`. -/
def predictOneDim (len : ℕ) (smoothed : ℕ → K) (row : List (Flt K)) : Option K :=
  match row.headD .nan with
  | .fin x => if 0 ≤ x ∧ rint x < (len : ℤ) then some (smoothed (rint x).toNat) else none
  | _ => none

/-- Validity of a component in `multidim.PredictingBinValueMixin.predict`, `smoothing/multidim.py` lines 49-54. -/
def validFloor (b : Flt K) (n : ℕ) : Bool :=
  match b with
  | .fin x => decide (0 ≤ x) && decide (⌊x⌋ < (n : ℤ))
  | _ => false

/-- `multidim.BinValuesSmoother.predict`, `smoothing/multidim.py` lines 41-59; `none` is NaN. -/
def predictMultiDim (ns : List ℕ) (smoothed : ℕ → K) (row : List (Flt K)) : Option K :=
  if (List.zipWith validFloor row ns).all id then some (smoothed (dotRow row (binSteps ns).tail)) else none

/-- The smoother of a fitted feature, `features.py` lines 64-67, 252-257 and 260-268: none without finite bins, otherwise a
bin-value smoother of one or several dimensions fitted on the bin centers. -/
def FittedFeature.smoother (f : FittedFeature K) : Option (List (Flt K) → Option K) :=
  if f.nFinite = 0 then none
  else if f.group.length < 2 then some (predictOneDim f.nFinite f.factors)
  else some (predictMultiDim (setNBins f.group.length (arangeMulti f.nBins)) f.factors)

/-- `_pred_feature(X, feature, is_fit=False)` for one sample, `base.py` lines 116-126 and 831-837; `learn_rate` is 1 after
`fit`. -/
def FittedFeature.predict (f : FittedFeature K) (row : List (Flt K)) : K :=
  if finiteSemiPositive row then
    match f.smoother with
    | some smoother =>
      match smoother row with
      | some v => 1 * v
      | none => 0
    | none => 0
  else f.factors f.nFinite

/-- `predict_extended(X, None)`, `base.py` lines 843-856, for the prior prediction `prior` in link space. -/
def predictExtended (prior : ℕ → K) (features : List (FittedFeature K)) (X : Table K) : Pred K :=
  features.foldl (fun pred f =>
    let v : ℕ → K := fun s => f.predict (X.row f.group s)
    if f.external then { pred with exponents := fun s => pred.exponents s + v s }
    else { pred with factors := fun s => pred.factors s + v s }) ⟨prior, fun _ => 0⟩

/-- The features as `_fit_main` leaves them: the final factors of a fit on a table of `n` samples.
Models: cyclic_boosting/base.py:970-974, features.py:260-268. -/
def fittedFeatures (X : Table K) (n : ℕ) (specs : List FeatureSpec) (factors : List (ℕ → K)) : List (FittedFeature K) :=
  List.zipWith (fun f fac => ⟨f.group, f.external, (bindData X n f.group none).2, fac⟩) specs factors

end

/-! ### Columns of the prediction frame and influence categories -/

section
variable {K : Type*} [Field K]

/-- The columns of `UpdateMixin.df`, `base.py` lines 50-53. -/
abbrev Frame (K : Type*) := String → Option (ℕ → K)

/-- Assignment of a column.
Models: cyclic_boosting/base.py:59-76. -/
def Frame.set (df : Frame K) (name : String) (v : ℕ → K) : Frame K := fun c => if c = name then some v else df c

/-- `influence_categories`: a dictionary whose keys are groups (tuples) or bare column names.
Models: cyclic_boosting/base.py:35-47. -/
structure Categories where
  byGroup : List String → Option String
  byName : String → Option String

/-- Failures of prediction.
Models: cyclic_boosting/base.py:35-47. -/
inductive PErr where
  | keyError
  deriving DecidableEq, Repr

/-- `get_influence_category`, `base.py` lines 35-47. -/
def getInfluenceCategory (group : List String) (cats : Option Categories) : Except PErr (Option String) :=
  match cats with
  | none => .ok none
  | some c =>
    match c.byGroup group with
    | some v => .ok (some v)
    | none =>
      match group with
      | [name] =>
        match c.byName name with
        | some v => .ok (some v)
        | none => .error .keyError
      | _ => .error .keyError

/-- `df[name] += v` (`KeyError` without that column).
Models: cyclic_boosting/base.py:55-60. -/
def Frame.addTo (df : Frame K) (name : String) (v : ℕ → K) : Except PErr (Frame K) :=
  match df name with
  | some old => .ok (df.set name (fun s => old s + v s))
  | none => .error .keyError

/-- `df[name] -= v` (`KeyError` without that column).
Models: cyclic_boosting/base.py:67-71. -/
def Frame.subFrom (df : Frame K) (name : String) (v : ℕ → K) : Except PErr (Frame K) :=
  match df name with
  | some old => .ok (df.set name (fun s => old s - v s))
  | none => .error .keyError

/-- `include_factor_contrib`, `base.py` lines 59-65. -/
def Frame.includeFactor (df : Frame K) (v : ℕ → K) (category : Option String) : Except PErr (Frame K) :=
  match df.addTo "factors" v with
  | .error e => .error e
  | .ok df =>
    match category with
    | none => .ok df
    | some c =>
      match df c with
      | some old => .ok (df.set c (fun s => old s + v s))
      | none => .ok (df.set c v)

/-- `remove_factor_contrib`, `base.py` lines 70-76: without a column of that category the contribution itself is stored. -/
def Frame.removeFactor (df : Frame K) (v : ℕ → K) (category : Option String) : Except PErr (Frame K) :=
  match df.subFrom "factors" v with
  | .error e => .error e
  | .ok df =>
    match category with
    | none => .ok df
    | some c =>
      match df c with
      | some old => .ok (df.set c (fun s => old s - v s))
      | none => .ok (df.set c v)

/-- `update_predictions`, `base.py` lines 78-84. -/
def Frame.update (df : Frame K) (v : ℕ → K) (group : List String) (external : Bool) (cats : Option Categories) :
    Except PErr (Frame K) :=
  if external then df.addTo "exponents" v
  else match getInfluenceCategory group cats with
    | .error e => .error e
    | .ok c => df.includeFactor v c

/-- `remove_predictions`, `base.py` lines 86-92. -/
def Frame.remove (df : Frame K) (v : ℕ → K) (group : List String) (external : Bool) (cats : Option Categories) :
    Except PErr (Frame K) :=
  if external then df.subFrom "exponents" v
  else match getInfluenceCategory group cats with
    | .error e => .error e
    | .ok c => df.removeFactor v c

/-- `CBLinkPredictionsFactors(predictions)`, `base.py` lines 95-99. -/
def factorsFrame (prior : ℕ → K) : Frame K := fun c => if c = "factors" then some prior else none

/-- `CBLinkPredictions(predictions, exponents, base)`, `price.py` lines 448-459. -/
def priceFrame (prior priorExponents base : ℕ → K) : Frame K := fun c =>
  if c = "factors" then some prior
  else if c = "prior_exponents" then some priorExponents
  else if c = "exponents" then some (fun _ => 0)
  else if c = "base" then some base
  else none

/-- The loop of `predict_extended(X, influence_categories)`, `base.py` lines 852-854, on the contributions of the features
(group, external, contribution of each sample). -/
def extendFrame (cats : Option Categories) :
    List (List String × Bool × (ℕ → K)) → Frame K → Except PErr (Frame K)
  | [], df => .ok df
  | (group, external, v) :: rest, df =>
    match df.update v group external cats with
    | .error e => .error e
    | .ok df => extendFrame cats rest df

end

end CB
