import Verif.Model.Price
import Verif.Model.SmootherChoice

/-!
# Model of the list of features of a fitted estimator

How features are found in it (`cyclic_boosting/features.py`), what `get_subestimators_as_items` lists (`cyclic_boosting/base.py`) and which
explicit smoothers a smoother choice accepts (`cyclic_boosting/common_smoothers.py`). Simplification: columns are strings, not numbers.
-/

set_option autoImplicit false

namespace CB

/-- A feature of a fitted estimator: its id, its smoother and whether it is still fitted.
Models: cyclic_boosting/features.py:53-98. -/
structure ListedFeature where
  id : FeatureId
  smoother : SmootherKind
  stopIterations : Bool
deriving DecidableEq, Repr

/-- `create_features`: the first group for which no smoother can be chosen ends it.
Models: cyclic_boosting/features.py:382-417. -/
def createFeatureList (choice : Choice) (props : Option (List (String × ℕ))) : List GroupArg → Except String (List ListedFeature)
  | [] => .ok []
  | arg :: args =>
    let id := createFeatureId .standard arg
    match smootherForGroup choice props id.group with
    | .error e => .error e
    | .ok kind =>
      match createFeatureList choice props args with
      | .error e => .error e
      | .ok rest => .ok (⟨id, kind, false⟩ :: rest)

/-- The loop of `__getitem__` over the features.
Models: cyclic_boosting/features.py:355-358. -/
def findFeature (id : FeatureId) : List ListedFeature → Except String ListedFeature
  | [] => .error "KeyError"
  | f :: fs => if f.id = id then .ok f else findFeature id fs

/-- `FeatureList.__getitem__`.
Models: cyclic_boosting/features.py:338-358. -/
def getItem (features : List ListedFeature) (arg : GroupArg) : Except String ListedFeature :=
  findFeature (createFeatureId .standard arg) features

/-- `FeatureList.get_feature`.
Models: cyclic_boosting/features.py:360-379. -/
def getFeature (features : List ListedFeature) (arg : GroupArg) (type : FType) : Except String ListedFeature :=
  getItem features (.id (createFeatureId type arg))

/-- `FeatureList.iter_fitting`.
Models: cyclic_boosting/features.py:323-329. -/
def iterFitting : List ListedFeature → List ListedFeature
  | [] => []
  | f :: fs => if !f.stopIterations then f :: iterFitting fs else iterFitting fs

/-- `get_subestimators_as_items`; the features are `none` before `fit`.
Models: cyclic_boosting/base.py:959-968, 941-944. -/
def subestimatorsAsItems (features : Option (List ListedFeature)) (prototypes : Bool) :
    Except String (List (FeatureId × SmootherKind)) :=
  if prototypes then .ok []
  else match features with
    | none => .error "ValueError"
    | some fs => .ok (fs.map fun f => (f.id, f.smoother))

/-- A key of the dictionary of explicit smoothers: a tuple, whose entries are strings (`some`) or something else (`none`), or
something that is not a tuple.
Models: cyclic_boosting/common_smoothers.py:182-183. -/
inductive ExplicitKey where
  | tuple (entries : List (Option String))
  | noTuple
deriving DecidableEq, Repr

/-- `is_tuple_of_strings`.
Models: cyclic_boosting/common_smoothers.py:182-183. -/
def isTupleOfStrings : ExplicitKey → Bool
  | .tuple entries => entries.all (·.isSome)
  | .noTuple => false

/-- `_validate_explicit_smoothers`: values are smoothers (`some`) or something else (`none`); `none` for no dictionary.
Models: cyclic_boosting/common_smoothers.py:177-196. -/
def validateExplicitSmoothers (explicit : Option (List (ExplicitKey × Option SmootherKind))) :
    Except String (List (List String × SmootherKind)) :=
  match explicit with
  | none => .ok []
  | some d =>
    if !(d.all fun p => isTupleOfStrings p.1) then .error "ValueError"
    else if !(d.all fun p => p.2.isSome) then .error "ValueError"
    else .ok (d.filterMap fun p => match p with
      | (.tuple entries, some s) => some (entries.filterMap id, s)
      | _ => none)

/-- `SmootherChoice.__init__`.
Models: cyclic_boosting/common_smoothers.py:171-175. -/
def smootherChoice (kind : ChoiceKind) (useRegressionType useNormalization : Bool)
    (explicit : Option (List (ExplicitKey × Option SmootherKind))) : Except String Choice :=
  match validateExplicitSmoothers explicit with
  | .error e => .error e
  | .ok d => .ok ⟨kind, useRegressionType, useNormalization, d⟩

end CB
