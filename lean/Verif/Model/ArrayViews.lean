import Verif.Model.Binning

/-!
# Model of the searches of whole arrays, in memory

`eq_multi`, `ge_multi` and `le_interp_multi` read and write arrays element by element. `ECdfTransformer.transform` calls them with the same
column as input and output. Memory is a sequence of cells, an array is a view of it. Tables to search in hold finite numbers, as in the
model of the binary searches.
-/

set_option autoImplicit false

namespace CB

/-- A one-dimensional numpy array: element i is the cell `offset + stride * i`. Simplification: strides are counted in elements and are
not negative.
Models: cyclic_boosting/binning/_binary_search.py:91-107 (the arrays passed to `eq_multi`). -/
structure ArrayView where
  offset : ℕ
  stride : ℕ
  length : ℕ
deriving DecidableEq, Repr

/-- The cell of an element.
Models: cyclic_boosting/binning/_binary_search.py:118 (the access `z_searched[i]`). -/
def ArrayView.cell (v : ArrayView) (i : ℕ) : ℕ := v.offset + v.stride * i

/-- The orders numpy stores matrices in.
Models: cyclic_boosting/binning/ecdf_transformer.py:275 (`np.asarray` keeps the order of its argument). -/
inductive StorageOrder where
  | rowMajor
  | columnMajor
deriving DecidableEq, Repr

/-- A two-dimensional array without gaps.
Models: cyclic_boosting/binning/ecdf_transformer.py:275. -/
structure MatrixView where
  base : ℕ
  rows : ℕ
  cols : ℕ
  order : StorageOrder
deriving DecidableEq, Repr

/-- `X[:, j]`, which is a view and not a copy.
Models: cyclic_boosting/binning/ecdf_transformer.py:288-293,297-301. -/
def MatrixView.column (X : MatrixView) (j : ℕ) : ArrayView :=
  match X.order with
  | .rowMajor => ⟨X.base + j, X.cols, X.rows⟩
  | .columnMajor => ⟨X.base + j * X.rows, 1, X.rows⟩

section
variable {K : Type*}

/-- A number, if it is finite.
Models: cyclic_boosting/binning/_binary_search.py:112-122 (the accesses to `z` and `u`). -/
def finiteOnly : Flt K → Option K
  | .fin x => some x
  | _ => none

/-- The values of an array, `none` if some of them are not finite.
Models: cyclic_boosting/binning/_binary_search.py:112-122 (the accesses to `z` and `u`). Simplification: tables with other values are not
modelled, the search fails. -/
def readFinite (m : ℕ → Flt K) (v : ArrayView) : Option (List K) :=
  ((List.range v.length).map fun i => m (v.cell i)).mapM finiteOnly

/-- The loop `for i in range(n): result[i] = search(z_searched[i])`; the search reads the memory of the moment.
Models: cyclic_boosting/binning/_binary_search.py:117-122,154-155,245-246. -/
def searchLoop (search : (ℕ → Flt K) → Flt K → Option (Flt K)) (searched result : ArrayView) :
    List ℕ → (ℕ → Flt K) → Except BinErr (ℕ → Flt K)
  | [], m => .ok m
  | i :: is, m =>
    match search m (m (searched.cell i)) with
    | none => .error .indexError
    | some v => searchLoop search searched result is (Function.update m (result.cell i) v)

variable [Field K] [LinearOrder K]

/-- One search of `eq_multi` in the memory of the moment.
Models: cyclic_boosting/binning/_binary_search.py:118-122. -/
def eqSearch (z u : ArrayView) (eps : K) (m : ℕ → Flt K) (s : Flt K) : Option (Flt K) :=
  match readFinite m z, readFinite m u with
  | some zs, some us => eqOne zs s us eps
  | _, _ => none

/-- `eq_multi`.
Models: cyclic_boosting/binning/_binary_search.py:86-122. -/
def eqMulti (z searched u : ArrayView) (eps : K) (result : ArrayView) (m : ℕ → Flt K) : Except BinErr (ℕ → Flt K) :=
  if result.length ≠ searched.length then .error .valueError
  else if z.length ≠ u.length then .error .valueError
  else searchLoop (eqSearch z u eps) searched result (List.range searched.length) m

/-- One search of `ge_multi` in the memory of the moment.
Models: cyclic_boosting/binning/_binary_search.py:155. -/
def geSearch (z : ArrayView) (inclusive : Bool) (m : ℕ → Flt K) (s : Flt K) : Option (Flt K) :=
  match readFinite m z with
  | some zs => (ge zs s inclusive).map fun i : ℤ => .fin (i : K)
  | none => none

/-- `ge_multi`.
Models: cyclic_boosting/binning/_binary_search.py:126-155. -/
def geMulti (z searched : ArrayView) (inclusive : Bool) (result : ArrayView) (m : ℕ → Flt K) : Except BinErr (ℕ → Flt K) :=
  if result.length ≠ searched.length then .error .valueError
  else searchLoop (geSearch z inclusive) searched result (List.range searched.length) m

/-- One search of `le_interp_multi` in the memory of the moment.
Models: cyclic_boosting/binning/_binary_search.py:246. -/
def interpSearch (z u : ArrayView) (outLeft eps : K) (m : ℕ → Flt K) (s : Flt K) : Option (Flt K) :=
  match readFinite m z, readFinite m u with
  | some zs, some us => leInterp zs s us outLeft eps
  | _, _ => none

/-- `le_interp_multi`.
Models: cyclic_boosting/binning/_binary_search.py:210-246. -/
def leInterpMulti (z searched u : ArrayView) (outLeft eps : K) (result : ArrayView) (m : ℕ → Flt K) : Except BinErr (ℕ → Flt K) :=
  if result.length ≠ searched.length then .error .valueError
  else searchLoop (interpSearch z u outLeft eps) searched result (List.range searched.length) m

/-- What `ECdfTransformer.transform` knows about a column: its position, whether it is continuous (`none`: no feature property), the
tolerance and `bins_and_cdfs`, a matrix of which the first two columns are used.
Models: cyclic_boosting/binning/ecdf_transformer.py:278-285. -/
structure EcdfEntry (K : Type*) where
  position : ℕ
  continuous : Option Bool
  eps : K
  table : Option MatrixView

/-- The treatment of one column.
Models: cyclic_boosting/binning/ecdf_transformer.py:279-305. -/
def ecdfColumnStep (X : MatrixView) (e : EcdfEntry K) (m : ℕ → Flt K) : Except BinErr (ℕ → Flt K) :=
  match e.continuous with
  | none => .ok m
  | some c =>
    match e.table with
    | some t =>
      if c then leInterpMulti (t.column 0) (X.column e.position) (t.column 1) 0 e.eps (X.column e.position) m
      else eqMulti (t.column 0) (X.column e.position) (t.column 1) e.eps (X.column e.position) m
    | none => searchLoop (fun _ _ => some .nan) (X.column e.position) (X.column e.position) (List.range X.rows) m

/-- The loop over the columns, which overwrites the matrix. Simplification: the checks of the input and the frame around the result are
modelled elsewhere.
Models: cyclic_boosting/binning/ecdf_transformer.py:275-305. -/
def ecdfColumns (X : MatrixView) : List (EcdfEntry K) → (ℕ → Flt K) → Except BinErr (ℕ → Flt K)
  | [], m => .ok m
  | e :: es, m =>
    match ecdfColumnStep X e m with
    | .error x => .error x
    | .ok m' => ecdfColumns X es m'

end

end CB
