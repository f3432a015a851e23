import Verif.Model.Flags
import Verif.Model.MetaSmoother

/-!
# Model of the choice of smoothers

Covers cyclic_boosting/common_smoothers.py.  Smoothers are represented by what they are, not by
what they compute; user-defined ones by a name and whether they are group-by smoothers.
-/

set_option autoImplicit false

namespace CB

open Flags

/-- The smoothers that can be chosen.
Models: cyclic_boosting/common_smoothers.py:67-81, 133-140, 306-337, 345-350. -/
inductive SmootherKind
  | explicit (name : String) (groupBy : Bool)
  | weightedMean
  | weightedMeanNeighbors
  | orthogonalPolynomial
  | linearExtrapolator
  | seasonal (offsetToZero : Bool)
  | isotonic (increasing : Option Bool)
  | binValuesOne
  | binValuesMany
  | weightedMeanMulti
  | groupByCB (inner : SmootherKind) (nDim : ℕ)
  | normalization (sub : SmootherKind)
  | regressionType (sub : SmootherKind) (t : RegType)
  | normalizationRegressionType (sub : SmootherKind) (t : RegType)
  deriving DecidableEq, Repr

/-- `_simplify_flags`; the warning of the last case formats the property with
`flags_to_string`, which can fail.
Models: cyclic_boosting/common_smoothers.py:23-64. -/
def simplifyFlags (fp : ℕ) : Except String ℕ :=
  if isSet fp IS_LINEAR then .ok IS_LINEAR
  else if isSet fp IS_SEASONAL then .ok IS_SEASONAL
  else if isSet fp IS_MONOTONIC then
    if isSet fp INCREASING then .ok (IS_MONOTONIC ||| INCREASING)
    else if isSet fp DECREASING then .ok (IS_MONOTONIC ||| DECREASING)
    else .ok IS_MONOTONIC
  else if isSet fp IS_CONTINUOUS then .ok IS_CONTINUOUS
  else if isSet fp IS_ORDERED then .ok IS_ORDERED
  else if isSet fp IS_UNORDERED then .ok IS_UNORDERED
  else if isSet fp HAS_MISSING then .ok IS_UNORDERED
  else match flagsToString fp with
    | .ok _ => .ok IS_UNORDERED
    | .error e => .error e

/-- `_default_smoother_types`: a dictionary.
Models: cyclic_boosting/common_smoothers.py:67-81. -/
def defaultSmootherTypes (useNormalization : Bool) : List (ℕ × SmootherKind) :=
  [(IS_UNORDERED, .weightedMean), (IS_ORDERED, .weightedMeanNeighbors),
    (IS_CONTINUOUS, .orthogonalPolynomial), (IS_LINEAR, .linearExtrapolator),
    (IS_SEASONAL, .seasonal (!useNormalization)), (IS_MONOTONIC, .isotonic none),
    (IS_MONOTONIC ||| INCREASING, .isotonic (some true)),
    (IS_MONOTONIC ||| DECREASING, .isotonic (some false))]

/-- `determine_reg_type` for a single property.
Models: cyclic_boosting/common_smoothers.py:99-105. -/
def regTypeSingle (fp : ℕ) : RegType :=
  if isSet fp IS_LINEAR then .extrapolating
  else if isSet fp IS_SEASONAL || isSet fp IS_CONTINUOUS then .interpolating
  else .discontinuous

/-- `determine_reg_type` for a tuple (as long as the feature group).
Models: cyclic_boosting/common_smoothers.py:106-113. -/
def regTypeTuple (fps : List ℕ) : RegType :=
  let regTypes := fps.map regTypeSingle
  if regTypes.contains .discontinuous then .discontinuous
  else if regTypes.contains .interpolating then .interpolating
  else .extrapolating

/-- `determine_meta_smoother`.
Models: cyclic_boosting/common_smoothers.py:116-140. -/
def metaSmoother (s : SmootherKind) (useNormalization : Bool) (t : Option RegType) : SmootherKind :=
  match useNormalization, t with
  | false, none => s
  | true, none => .normalization s
  | false, some t => .regressionType s t
  | true, some t => .normalizationRegressionType s t

/-- A `SmootherChoice`: which subclass, and its arguments.
Models: cyclic_boosting/common_smoothers.py:143-175, 299-350. -/
inductive ChoiceKind
  | weightedMean | groupBy | noSmoother
  deriving DecidableEq, Repr

/-- The arguments of a smoother choice.
Models: cyclic_boosting/common_smoothers.py:171-175. -/
structure Choice where
  kind : ChoiceKind
  useRegressionType : Bool
  useNormalization : Bool
  explicit : List (List String × SmootherKind)

/-- `self.explicit_smoothers.get(feature_group)`.
Models: cyclic_boosting/common_smoothers.py:219, 246. -/
def Choice.explicitFor (c : Choice) (group : List String) : Option SmootherKind :=
  (c.explicit.find? fun p => p.1 = group).map (·.2)

/-- `isinstance(smoother, GroupBySmootherCB)`.
Models: cyclic_boosting/common_smoothers.py:322. -/
def SmootherKind.isGroupByCB : SmootherKind → Bool
  | .explicit _ g => g
  | .groupByCB _ _ => true
  | _ => false

/-- `get_onedim_smoother`.
Models: cyclic_boosting/common_smoothers.py:228-251. -/
def Choice.onedim (c : Choice) (fp : ℕ) (name : String) : Except String SmootherKind :=
  match c.explicitFor [name] with
  | some s => .ok s
  | none =>
    match simplifyFlags fp with
    | .error e => .error e
    | .ok key =>
      match (defaultSmootherTypes c.useNormalization).lookup key with
      | some s => .ok s
      | none => .error "KeyError"

/-- `wrap_smoother`; the group-by choice uses the last property only and does not wrap group-by
smoothers.  (`super(self.__class__, self)` works for the class itself, not for
subclasses of it.)
Models: cyclic_boosting/common_smoothers.py:274-296, 319-327. -/
def Choice.wrap (c : Choice) (s : SmootherKind) (fps : List ℕ) : Except String SmootherKind :=
  match c.kind with
  | .groupBy =>
    if s.isGroupByCB then .ok s
    else match fps.getLast? with
      | none => .error "IndexError"
      | some fp =>
        .ok (metaSmoother s c.useNormalization (if c.useRegressionType then some (regTypeSingle fp) else none))
  | _ => .ok (metaSmoother s c.useNormalization (if c.useRegressionType then some (regTypeTuple fps) else none))

/-- `get_raw_smoother` of the subclasses (not called by `NoSmootherChoice`).
Models: cyclic_boosting/common_smoothers.py:306-311, 329-337. -/
def Choice.raw (c : Choice) (group : List String) (fps : List ℕ) : Except String SmootherKind :=
  match c.kind with
  | .groupBy =>
    match fps.getLast?, group.getLast? with
    | some fp, some name =>
      match c.onedim fp name with
      | .error e => .error e
      | .ok inner =>
        if 1 < group.length then
          match c.wrap inner fps with
          | .error e => .error e
          | .ok w => .ok (.groupByCB w group.length)
        else .ok inner
    | _, _ => .error "IndexError"
  | _ =>
    if 1 < group.length then .ok .weightedMeanMulti
    else match fps.head?, group.head? with
      | some fp, some name => c.onedim fp name
      | _, _ => .error "IndexError"

/-- `choice_fct`.
Models: cyclic_boosting/common_smoothers.py:198-226, 345-350. -/
def Choice.choose (c : Choice) (group : List String) (fps : List ℕ) : Except String SmootherKind :=
  match c.kind with
  | .noSmoother => c.wrap (if group.length = 1 then .binValuesOne else .binValuesMany) fps
  | _ =>
    match c.explicitFor group with
    | some s => c.wrap s fps
    | none =>
      match c.raw group fps with
      | .error e => .error e
      | .ok s => c.wrap s fps

/-- `read_feature_property` for a feature group.
Models: cyclic_boosting/flags.py:398-430. -/
def readFeatureProperty (props : Option (List (String × ℕ))) (group : List String) (default : ℕ) : List ℕ :=
  group.map fun col => match props with
    | none => default
    | some d => (d.lookup col).getD default

/-- The smoother of a feature: the property is looked up with default HAS_MISSING.
Models: cyclic_boosting/features.py:402-409. -/
def smootherForGroup (c : Choice) (props : Option (List (String × ℕ))) (group : List String) :
    Except String SmootherKind :=
  c.choose group (readFeatureProperty props group HAS_MISSING)

end CB
