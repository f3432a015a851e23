import Mathlib.Algebra.Order.Field.Basic
import Mathlib.Algebra.Order.Group.Unbundled.Abs
import Mathlib.Algebra.BigOperators.Group.List.Defs
import Mathlib.Data.Nat.Notation

set_option autoImplicit false

/-!
Model of the feature importances (`cyclic_boosting/base.py`, `features.py`, `utils.py`) and of the length check of the
training data.
-/
namespace CB

/-- Assignment `d[k] = v` to a Python dictionary, which keeps the order of first insertion.
Models: cyclic_boosting/base.py:974,984-987. -/
def dictSet {α β : Type*} [DecidableEq α] : List (α × β) → α → β → List (α × β)
  | [], k, v => [(k, v)]
  | (k', v') :: d, k, v => if k' = k then (k', v) :: d else (k', v') :: dictSet d k v

/-- A dictionary built from a sequence of assignments.
Models: cyclic_boosting/base.py:984-987. -/
def dictOf {α β : Type*} [DecidableEq α] (l : List (α × β)) : List (α × β) :=
  l.foldl (fun d p => dictSet d p.1 p.2) []

section
variable {K : Type*} [Field K] [LinearOrder K]

/-- `set_feature_bin_deviations_from_neutral` with neutral factor 0, `features.py` lines 276-279: `codes` are the bins of
the samples. -/
def binWeightedAverage (codes : List ℕ) (nBins : ℕ) (factors : ℕ → K) : K :=
  let weights : ℕ → K := fun b => (codes.count b : K)
  ((List.range nBins).map (fun b => weights b * |factors b - 0| / ((List.range nBins).map weights).sum)).sum

/-- `round(x, 6) != 0.0`: Python rounds to the nearest multiple of 1e-6.
Models: cyclic_boosting/utils.py:1079. -/
def roundedNonzero (x : K) : Bool := decide (1 / 2000000 < |x|)

/-- `get_normalized_values`, `utils.py` lines 1077-1081. -/
def getNormalizedValues (values : List K) : List K :=
  if roundedNonzero values.sum then values.map (fun v => v / values.sum) else values

/-- `get_feature_importances`, `base.py` lines 976-988, on the stored importances (feature group and value, in the order in
which they were stored; the keys of that dictionary are the feature objects, all different). -/
def getFeatureImportances (stored : List (List String × K)) : Except String (List (String × K)) :=
  if stored.isEmpty then .error "ValueError"
  else .ok (dictOf (List.zipWith (fun f v => ("_".intercalate f.1, v)) stored (getNormalizedValues (stored.map Prod.snd))))

/-- `set_feature_importances`, `base.py` lines 970-974: the values of a fit are added to those stored before (the
dictionary is only created in the constructor, line 303). A feature is (group, bins of the samples, number of bins, factors). -/
def setFeatureImportances (before : List (List String × K)) (features : List (List String × List ℕ × ℕ × (ℕ → K))) :
    List (List String × K) :=
  before ++ features.map (fun f => (f.1, binWeightedAverage f.2.1 f.2.2.1 f.2.2.2))

end

/-- `_check_len_data`, `base.py` lines 946-949: `len(X) == 0 | len(y) == 0` is the chained comparison
`len(X) == (0 | len(y)) and (0 | len(y)) == 0`. -/
def checkLenData (lenX lenY : ℕ) : Except String Unit :=
  if lenX = (0 ||| lenY) ∧ (0 ||| lenY) = 0 then .error "ValueError" else .ok ()

end CB
