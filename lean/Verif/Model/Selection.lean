import Verif.Model.Interactions
import Mathlib.Order.WithBot
import Mathlib.Data.List.Sort
import Mathlib.Algebra.BigOperators.Group.List.Basic

/-!
# Model of the selection of interaction terms

Covers `select_interaction_terms_anova` of cyclic_boosting/interaction_selection.py together with what it uses of scikit-learn:
`SelectKBest` and the ranking of `f_regression`.
-/

set_option autoImplicit false

namespace CB

section
variable {K : Type*} [LinearOrder K]

/-- The order in which `np.argsort(scores, kind="mergesort")` lists two positions: by score, and by position for equal scores (the
sort is stable). `⊥` is a NaN, which `_clean_nans` replaces by the smallest float.
Models: cyclic_boosting/interaction_selection.py:103-108 (`SelectKBest._get_support_mask` of scikit-learn). -/
def scoreLe (scores : List (WithBot K)) (i j : ℕ) : Bool :=
  decide (scores.getD i ⊥ < scores.getD j ⊥ ∨ (scores.getD i ⊥ = scores.getD j ⊥ ∧ i ≤ j))

/-- `SelectKBest(k).get_support`: positions in the result of `argsort`, of which the last `k` are marked; the marked positions are
listed in their original order. As no two positions are equal in this order, any sorting algorithm gives the same list.
Models: cyclic_boosting/interaction_selection.py:103-108 (`SelectKBest._get_support_mask` of scikit-learn). -/
def selectKBest (scores : List (WithBot K)) (k : ℕ) : List ℕ :=
  let order := (List.range scores.length).insertionSort fun i j => scoreLe scores i j = true
  let marked := order.drop (order.length - k)
  (List.range scores.length).filter fun i => decide (i ∈ marked)

end

section
variable {K : Type*} [Field K] [LinearOrder K] [FloorRing K]

/-- The squared correlation of a column with the target, 0 if one of them is constant. `f_regression` gives
`r² / (1 - r²) * (n - 2)`, with the largest float for `r² = 1`. Simplification: the model ranks by `r²` itself, which gives the same
ranking for more than two samples.
Models: cyclic_boosting/interaction_selection.py:106 (`f_regression` of scikit-learn). -/
def squaredCorrelation (column y : List K) : WithBot K :=
  let n : K := column.length
  let mx := column.sum / n
  let my := y.sum / n
  let dx := column.map fun a => a - mx
  let dy := y.map fun b => b - my
  let sxy := (List.zipWith (· * ·) dx dy).sum
  let sxx := (dx.map fun a => a * a).sum
  let syy := (dy.map fun b => b * b).sum
  ((sxy * sxy / (sxx * syy) : K) : WithBot K)

/-- `select_interaction_terms_anova` for binned rows; `features` are the keys of `feature_properties`, `score` is `f_regression` or
`f_classif`.
Models: cyclic_boosting/interaction_selection.py:72-109. -/
def selectInteractionTerms {α : Type*} (score : List K → List K → WithBot K) (features : List α) (col : α → ℕ)
    (rows : List (List (Flt K))) (y : List K) (dim k : ℕ) : List (List α) :=
  let terms := createInteractions features dim
  let scores := terms.map fun t => score ((interactionColumn col t rows).map fun b : ℕ => (b : K)) y
  (selectKBest scores k).map fun i => terms.getD i []

end

end CB
