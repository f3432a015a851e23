import Mathlib.Data.List.Basic

/-! Model of `cyclic_boosting.utils.get_feature_column_names`: the list of the columns of a table, without some of them. Columns are the
list of their names, in the order of the table; pandas allows a name to occur more than once. -/

set_option autoImplicit false

namespace CB

/-- One pass of the loop: `if col in features: features.remove(col)`. `list.remove` takes away the first occurrence only.
Models: cyclic_boosting/utils.py:1022-1024. -/
def withoutColumn {α : Type} [DecidableEq α] (features : List α) (col : α) : List α :=
  if col ∈ features then features.erase col else features

/-- `get_feature_column_names(X, exclude_columns)` for a table with these column names. The list it starts from is a copy, so the table
itself is not changed.
Models: cyclic_boosting/utils.py:1020-1025. -/
def featureColumnNames {α : Type} [DecidableEq α] (columns exclude : List α) : List α :=
  exclude.foldl withoutColumn columns

end CB
