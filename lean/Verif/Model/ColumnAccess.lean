import Mathlib.Data.List.Basic
import Mathlib.Data.Int.Init

/-!
# Model of the access to the columns of tables and arrays

`get_X_column`, `get_column_index` and `column_selector`. A column is a function from row numbers to values. Tables are
pandas data frames, whose names may occur more than once, or two-dimensional numpy arrays.
-/

set_option autoImplicit false

namespace CB

/-- The name or the position of a column.
Models: cyclic_boosting/utils.py:87-91 (the labels `get_X_column` accepts). -/
inductive Label where
  | str (name : String)
  | int (position : ℤ)
deriving DecidableEq, Repr

/-- What is passed as `column`: one label, a list of labels or a tuple of labels.
Models: cyclic_boosting/utils.py:79-88. -/
inductive ColumnArg where
  | one (label : Label)
  | list (labels : List Label)
  | tuple (labels : List Label)
deriving DecidableEq, Repr

/-- A data frame with its columns in order, or an array with `width` columns.
Models: cyclic_boosting/utils.py:85-86 (the tables `get_X_column` accepts). -/
inductive DataTable (α : Type) where
  | frame (columns : List (Label × (ℕ → α)))
  | array (width : ℕ) (entry : ℕ → ℕ → α)

/-- A one-dimensional or a two-dimensional result, the latter as the list of its columns.
Models: cyclic_boosting/utils.py:105-108 (the results of the two accesses). -/
inductive Picked (α : Type) where
  | vector (column : ℕ → α)
  | matrix (columns : List (ℕ → α))

section
variable {α : Type}

/-- The columns of a frame with this name.
Models: cyclic_boosting/utils.py:106 (the access `X[column]` of pandas). -/
def namedColumns (columns : List (Label × (ℕ → α))) (label : Label) : List (ℕ → α) :=
  (columns.filter fun c => c.1 = label).map Prod.snd

/-- The position an index of numpy means: negative ones count from the end.
Simplification: labels that are not integers give the same exception as those outside the array.
Models: cyclic_boosting/utils.py:108 (the access `X[:, column]` of numpy). -/
def arrayPosition (width : ℕ) : Label → Option ℕ
  | .str _ => none
  | .int k => if 0 ≤ k ∧ k < width then some k.toNat else if k < 0 ∧ -(width : ℤ) ≤ k then some (k + width).toNat else none

/-- `X[label].values` of a frame and `X[:, label]` of an array. A name that occurs several times gives a matrix.
Models: cyclic_boosting/utils.py:105-108. -/
def pickOne : DataTable α → Label → Except String (Picked α)
  | .frame columns, label =>
    match namedColumns columns label with
    | [] => .error "KeyError"
    | [c] => .ok (.vector c)
    | cs => .ok (.matrix cs)
  | .array width entry, label =>
    match arrayPosition width label with
    | none => .error "IndexError"
    | some j => .ok (.vector fun i => entry i j)

/-- `X[labels].values` of a frame and `X[:, labels]` of an array, for a list of labels.
Models: cyclic_boosting/utils.py:105-108. -/
def pickMany : DataTable α → List Label → Except String (List (ℕ → α))
  | _, [] => .ok []
  | .frame columns, label :: labels =>
    match namedColumns columns label with
    | [] => .error "KeyError"
    | cs =>
      match pickMany (.frame columns) labels with
      | .error e => .error e
      | .ok rest => .ok (cs ++ rest)
  | .array width entry, label :: labels =>
    match arrayPosition width label with
    | none => .error "IndexError"
    | some j =>
      match pickMany (.array width entry) labels with
      | .error e => .error e
      | .ok rest => .ok ((fun i => entry i j) :: rest)

/-- The access with a list.
Models: cyclic_boosting/utils.py:105-108. -/
def pickList (X : DataTable α) (labels : List Label) : Except String (Picked α) :=
  match pickMany X labels with
  | .error e => .error e
  | .ok cs => .ok (.matrix cs)

/-- `get_X_column`. A tuple becomes a list; with `array_for_1_dim` a list of one label becomes that label, without it a single label
becomes a list.
Models: cyclic_boosting/utils.py:79-108, cyclic_boosting/binning/ecdf_transformer.py:489-517. -/
def getXColumn (X : DataTable α) (column : ColumnArg) (arrayFor1Dim : Bool := true) : Except String (Picked α) :=
  let column := match column with
    | .tuple labels => ColumnArg.list labels
    | c => c
  let column := match arrayFor1Dim, column with
    | false, .one label => ColumnArg.list [label]
    | true, .list [label] => ColumnArg.one label
    | _, c => c
  match column with
  | .one label => pickOne X label
  | .list labels => pickList X labels
  | .tuple labels => pickList X labels

/-- `get_column_index`: `list.index` finds the first column with the name; for arrays the label is returned as it is.
Models: cyclic_boosting/binning/_utils.py:62-76. -/
def getColumnIndex (X : DataTable α) (label : Label) : Except String Label :=
  match X with
  | .frame columns =>
    if label ∈ columns.map Prod.fst then .ok (.int ((columns.map Prod.fst).idxOf label)) else .error "ValueError"
  | .array _ _ => .ok label

/-- `np.asarray(X)` of a frame, into which the computed positions point.
Simplification: `fill` stands for entries outside the frame, which are never looked up.
Models: cyclic_boosting/binning/ecdf_transformer.py:275. -/
def frameValues (fill : ℕ → α) (columns : List (Label × (ℕ → α))) : DataTable α :=
  .array columns.length fun i j => ((columns[j]?).map (fun c => c.2 i)).getD (fill i)

/-- `column_selector`. Simplification: `int(column)` is modelled for integers only.
Models: cyclic_boosting/binning/bin_number_transformer.py:216-221. -/
def columnSelector (X : DataTable α) (label : Label) : Except String (Picked α) :=
  pickOne X label

end

end CB
