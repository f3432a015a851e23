import Verif.Model.Multidim
import Mathlib.Data.Nat.Notation

/-!
# Model of the interaction candidates

Covers `create_interactions` and `build_binned_interaction_features` of
cyclic_boosting/interaction_selection.py.  The selection itself
(scikit-learn's `SelectKBest`) is in Model/Selection.lean.
-/

set_option autoImplicit false

namespace CB

/-- `itertools.combinations(xs, n)`, in the order of the positions.
Models: cyclic_boosting/interaction_selection.py:30 (Python's definition). -/
def combinations {α : Type*} : ℕ → List α → List (List α)
  | 0, _ => [[]]
  | _ + 1, [] => []
  | n + 1, x :: xs => (combinations n xs).map (x :: ·) ++ combinations (n + 1) xs

/-- `create_interactions`: the loop over `range(2, dim + 1)`.
Models: cyclic_boosting/interaction_selection.py:13-31. -/
def createInteractions {α : Type*} (features : List α) (dim : ℕ) : List (List α) :=
  ((List.range (dim + 1)).drop 2).foldl (fun acc n => acc ++ combinations n features) []

/-- One column of the result of `build_binned_interaction_features`: the
lexicographic number of the bins of the features in `term`.  `rows` are the rows
of the binned data frame, `col f` is the position of feature `f`.
Models: cyclic_boosting/interaction_selection.py:60-67. -/
def interactionColumn {α K : Type*} [Field K] [LinearOrder K] [FloorRing K] (col : α → ℕ)
    (term : List α) (rows : List (List (Flt K))) : List ℕ :=
  (lexBinnos term.length (rows.map fun r => term.map fun f => r.getD (col f) .nan) none).1

end CB
