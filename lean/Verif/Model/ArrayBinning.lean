import Verif.Model.BinnerObject

/-!
# The binning transformers on numpy arrays

An array has one element type for all its columns, and assigning to a column converts the values to it. `np.asarray(X, dtype=float)` is the
array `X` itself if its elements are of this type.

Simplifications: the labels of the columns of an array, their indices, are written as strings; the element types are the 64 bit floats
(`float`) and integers of a range. Floats hold bin numbers exactly. Data frames are covered by `BinnerObject`; whether a data frame and the
array made of it share memory depends on pandas, and is not modelled.
-/

set_option autoImplicit false

namespace CB

/-- Element types of arrays: floats, or the integers from `lo` to `hi`.
Models: cyclic_boosting/binning/bin_number_transformer.py:222-246 (numpy's dtypes). -/
inductive ElementType where
  | float
  | int (lo hi : ℤ)
  deriving DecidableEq, Repr

/-- The type holds this number.
Models: cyclic_boosting/binning/bin_number_transformer.py:241-246 (numpy's conversion on assignment). -/
def ElementType.Holds : ElementType → ℤ → Prop
  | .float, _ => True
  | .int lo hi, z => lo ≤ z ∧ z ≤ hi

open Classical in
/-- What an element of the array is after a number was assigned to it; `overflow` is the result for numbers out of range, which depends on
the processor.
Models: cyclic_boosting/binning/bin_number_transformer.py:241-246 (numpy's conversion on assignment). -/
noncomputable def ElementType.store (t : ElementType) (overflow : ℤ → ℤ) (z : ℤ) : ℤ := if t.Holds z then z else overflow z

/-- An array.
Models: cyclic_boosting/binning/bin_number_transformer.py:179-213 (the arrays it is called with). -/
structure ArrayObj where
  type : ElementType
  frame : DataFrame

open Classical in
/-- The loop of `transform` for a copy of an array: `X[:, int(column)] = ...`.
Models: cyclic_boosting/binning/bin_number_transformer.py:199-209, 147-177, 241-246. -/
noncomputable def BinnerObject.arrayLoop (o : BinnerObject) (t : ElementType) (overflow : ℤ → ℤ) :
    List (String × ColFit ℝ) → DataFrame → Except TransformErr DataFrame
  | [], F => .ok F
  | (c, f) :: rest, F =>
    match o.cfg.props.lookup c with
    | none => o.arrayLoop t overflow rest F
    | some fp =>
      if c ∈ F.columns then
        let number := fun s => binNumber (Flags.isSet fp Flags.IS_CONTINUOUS) (Flags.isSet fp Flags.HAS_MAGIC_INT_MISSING) f.eps
          (f.table.map Prod.fst) (F.X s c)
        if ∀ s < F.n, ∃ i, number s = .ok i then
          o.arrayLoop t overflow rest
            { F with
              X := fun s => Function.update (F.X s) c (match number s with
                | .ok i => .fin (t.store overflow i : ℝ)
                | .error _ => .nan) }
        else .error (.binning .indexError)
      else .error (.binning .indexError)

/-- `BinNumberTransformer.transform` for an array, without `inplace`: the entries of the array that is returned. If all columns were binned, it is
finally converted to the smallest integer type, which changes no entry (C10).
Models: cyclic_boosting/binning/bin_number_transformer.py:179-213. -/
noncomputable def BinnerObject.transformArray (o : BinnerObject) (overflow : ℤ → ℤ) (A : ArrayObj) : Except TransformErr DataFrame :=
  match o.checkInput A.frame with
  | .error e => .error e
  | .ok bins =>
    if A.frame.n = 0 ∨ A.frame.columns = [] then .ok A.frame else o.arrayLoop A.type overflow bins A.frame

/-! ### `ECdfTransformer` -/

/-- The arrays that exist.
Models: cyclic_boosting/binning/ecdf_transformer.py:270-312 (the arrays it is called with). -/
structure ArrayMemory where
  arrays : ℕ → ArrayObj
  next : ℕ

/-- `np.asarray(X, dtype=float)`: no copy if the elements are floats.
Models: cyclic_boosting/binning/ecdf_transformer.py:276-277. -/
def ArrayMemory.asFloat (m : ArrayMemory) (a : ℕ) : ArrayMemory × ℕ :=
  match (m.arrays a).type with
  | .float => (m, a)
  | .int _ _ => (⟨Function.update m.arrays m.next ⟨.float, (m.arrays a).frame⟩, m.next + 1⟩, m.next)

/-- `X[:, j] = values` for an array of floats.
Models: cyclic_boosting/binning/ecdf_transformer.py:286-305. -/
def ArrayMemory.setColumn (m : ArrayMemory) (a : ℕ) (c : String) (v : ℕ → Flt ℝ) : ArrayMemory :=
  { m with
    arrays := Function.update m.arrays a
      { m.arrays a with frame := { (m.arrays a).frame with X := fun s => Function.update ((m.arrays a).frame.X s) c (v s) } } }

open Classical in
/-- The loop of `ECdfTransformer.transform`.
Models: cyclic_boosting/binning/ecdf_transformer.py:279-305. -/
noncomputable def BinnerObject.ecdfLoop (o : BinnerObject) (a : ℕ) :
    List (String × ColFit ℝ) → ArrayMemory → ArrayMemory × Except TransformErr ℕ
  | [], m => (m, .ok a)
  | (c, f) :: rest, m =>
    match o.cfg.props.lookup c with
    | none => o.ecdfLoop a rest m
    | some fp =>
      if c ∈ (m.arrays a).frame.columns then
        let value := fun s => ecdfValue (Flags.isSet fp Flags.IS_CONTINUOUS) f.eps f.table ((m.arrays a).frame.X s c)
        if ∀ s < (m.arrays a).frame.n, ∃ v, value s = .ok v then
          o.ecdfLoop a rest (m.setColumn a c fun s => match value s with
            | .ok v => v
            | .error _ => .nan)
        else (m, .error (.binning .indexError))
      else (m, .error (.binning .indexError))

/-- `ECdfTransformer.transform` of the array at address `a`; an empty array is returned as it is.
Models: cyclic_boosting/binning/ecdf_transformer.py:270-312. -/
noncomputable def BinnerObject.transformEcdf (o : BinnerObject) (m : ArrayMemory) (a : ℕ) : ArrayMemory × Except TransformErr ℕ :=
  match o.checkInput (m.arrays a).frame with
  | .error e => (m, .error e)
  | .ok bins =>
    if (m.arrays a).frame.n = 0 ∨ (m.arrays a).frame.columns = [] then (m, .ok a)
    else
      let (m, a) := m.asFloat a
      o.ecdfLoop a bins m

end CB
