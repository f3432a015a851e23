import Verif.Model.BinnedFit
import Verif.Model.Api

/-!
# The binner as an object, and tables as objects in memory

`BinNumberTransformer` on data frames: the attribute `bins_and_cdfs_` changes with every call of `fit`, whether it raises or not, and
`transform` works on a copy of the table or, with `inplace=True`, on the table it is given.

Simplifications: the feature properties are given as a dictionary, and the names of the columns of a table are all different. A number of bins
is given for every column. Weights are finite or NaN (which counts as 0 in all sums of the code).
-/

set_option autoImplicit false

namespace CB

/-- The tables that exist; `next` is the address of the next one to be created.
Models: cyclic_boosting/binning/bin_number_transformer.py:179-213 (the data frames it is called with). -/
structure Memory where
  frames : ℕ → DataFrame
  next : ℕ

/-- `X.copy()` (or any other operation that creates a table with the same entries): the new memory and the address of the copy.
Models: cyclic_boosting/binning/bin_number_transformer.py:185-186. -/
def Memory.copy (m : Memory) (a : ℕ) : Memory × ℕ := (⟨Function.update m.frames m.next (m.frames a), m.next + 1⟩, m.next)

/-- `X[column] = values` for a table with this column.
Models: cyclic_boosting/binning/bin_number_transformer.py:241-246. -/
def Memory.setColumn (m : Memory) (a : ℕ) (c : String) (v : ℕ → Flt ℝ) : Memory :=
  { m with
    frames := Function.update m.frames a
      { m.frames a with X := fun s => Function.update ((m.frames a).X s) c (v s) } }

/-- The arguments of the constructor and the attribute `bins_and_cdfs_`.
Models: cyclic_boosting/binning/bin_number_transformer.py:122-145, ecdf_transformer.py:184-197. -/
structure BinnerObject where
  cfg : Binner
  weightColumn : Option String
  inplace : Bool
  bins : Option (List (String × ColFit ℝ))

/-- Exceptions of `transform`.
Models: cyclic_boosting/binning/bin_number_transformer.py:179-213, ecdf_transformer.py:254-268. -/
inductive TransformErr where
  | runtimeError
  | valueError
  | keyError
  | binning (e : BinErr)
  deriving DecidableEq, Repr

/-- The constructor.
Models: cyclic_boosting/binning/bin_number_transformer.py:122-145, ecdf_transformer.py:184-197. -/
def BinnerObject.new (cfg : Binner) (weightColumn : Option String) (inplace : Bool) : BinnerObject := ⟨cfg, weightColumn, inplace, none⟩

/-- `get_feature_column_names_or_indices(X, exclude_columns=[self.weight_column])`.
Models: cyclic_boosting/binning/ecdf_transformer.py:214, 317-361. -/
def BinnerObject.featureColumns (o : BinnerObject) (F : DataFrame) : List String := F.columns.filter fun c => decide (some c ≠ o.weightColumn)

/-- `get_weight_column`.
Models: cyclic_boosting/binning/ecdf_transformer.py:364-408. -/
def BinnerObject.weights (o : BinnerObject) (F : DataFrame) : Except BinErr (List ℝ) :=
  match o.weightColumn with
  | none => .ok (List.replicate F.n 1)
  | some w =>
    if w ∈ F.columns then .ok ((List.range F.n).map fun s => (F.X s w).getFin)
    else .error .valueError

/-- One column in the loop of `fit`: `none` for a column without feature property.
Models: cyclic_boosting/binning/ecdf_transformer.py:216-250, _utils.py:13-43. -/
noncomputable def BinnerObject.fitOne (o : BinnerObject) (F : DataFrame) (weights : List ℝ) (c : String) :
    Option (Except BinErr (ColFit ℝ)) :=
  match o.cfg.props.lookup c with
  | none => none
  | some fp =>
    match Flags.checkConsistency fp with
    | .error _ => some (.error .valueError)
    | .ok _ => some (fitColumn (Flags.isSet fp Flags.IS_ORDERED || Flags.isSet fp Flags.IS_UNORDERED) (F.X.column F.n c)
        weights (o.cfg.nBins c) o.cfg.epsilon o.cfg.tolerance)

/-- The loop of `fit`: what has been appended to `bins_and_cdfs_`, and the exception.
Models: cyclic_boosting/binning/ecdf_transformer.py:217-251. -/
noncomputable def BinnerObject.fitLoop (o : BinnerObject) (F : DataFrame) (weights : List ℝ) :
    List String → List (String × ColFit ℝ) → List (String × ColFit ℝ) × Option BinErr
  | [], acc => (acc, none)
  | c :: cs, acc =>
    match o.fitOne F weights c with
    | none => o.fitLoop F weights cs acc
    | some (.error e) => (acc, some e)
    | some (.ok f) => o.fitLoop F weights cs (acc ++ [(c, f)])

/-- `fit`: the object afterwards and the exception, if there is one.
Models: cyclic_boosting/binning/ecdf_transformer.py:206-252. -/
noncomputable def BinnerObject.fit (o : BinnerObject) (F : DataFrame) : BinnerObject × Option BinErr :=
  if F.n = 0 ∨ F.columns = [] then ({ o with bins := some [] }, some .valueError)
  else
    match o.weights F with
    | .error e => ({ o with bins := some [] }, some e)
    | .ok weights =>
      let r := o.fitLoop F weights (o.featureColumns F) []
      ({ o with bins := some r.1 }, r.2)

/-- `_check_input_for_transform`.
Models: cyclic_boosting/binning/ecdf_transformer.py:254-268. -/
def BinnerObject.checkInput (o : BinnerObject) (F : DataFrame) : Except TransformErr (List (String × ColFit ℝ)) :=
  match o.bins with
  | none => .error .runtimeError
  | some bins =>
    if ((o.featureColumns F).filter fun c => (o.cfg.props.lookup c).isSome).length ≠ bins.length then .error .valueError
    else .ok bins

open Classical in
/-- The loop of `transform`: the columns of the table at address `a` are replaced one after the other.
Models: cyclic_boosting/binning/bin_number_transformer.py:199-209, 147-177. -/
noncomputable def BinnerObject.transformLoop (o : BinnerObject) (a : ℕ) :
    List (String × ColFit ℝ) → Memory → Memory × Except TransformErr ℕ
  | [], m => (m, .ok a)
  | (c, f) :: rest, m =>
    match o.cfg.props.lookup c with
    | none => o.transformLoop a rest m
    | some fp =>
      if c ∈ (m.frames a).columns then
        let number := fun s => binNumber (Flags.isSet fp Flags.IS_CONTINUOUS) (Flags.isSet fp Flags.HAS_MAGIC_INT_MISSING) f.eps
          (f.table.map Prod.fst) ((m.frames a).X s c)
        if ∀ s < (m.frames a).n, ∃ i, number s = .ok i then
          o.transformLoop a rest (m.setColumn a c fun s => match number s with
            | .ok i => .fin (i : ℝ)
            | .error _ => .nan)
        else (m, .error (.binning .indexError))
      else (m, .error .keyError)

open Classical in
/-- `transform` of the table at address `a`: the memory afterwards and the address of the table that is returned, or the exception. For a table
without rows only the types of the columns are changed, which makes another table.
Models: cyclic_boosting/binning/bin_number_transformer.py:179-213. -/
noncomputable def BinnerObject.transform (o : BinnerObject) (m : Memory) (a : ℕ) : Memory × Except TransformErr ℕ :=
  match o.checkInput (m.frames a) with
  | .error e => (m, .error e)
  | .ok bins =>
    let (m, a) := if o.inplace then (m, a) else m.copy a
    if (m.frames a).n = 0 ∨ (m.frames a).columns = [] then
      if ∀ p ∈ bins, p.1 ∈ (m.frames a).columns then
        let (m, a) := m.copy a
        (m, .ok a)
      else (m, .error .keyError)
    else o.transformLoop a bins m

/-- A call of a method.
Models: cyclic_boosting/binning/bin_number_transformer.py:179, ecdf_transformer.py:206. -/
inductive BinnerCall where
  | fit (F : DataFrame)
  | transform (a : ℕ)

/-- The object and the memory after a call, whether it raised or not.
Models: cyclic_boosting/binning/bin_number_transformer.py:179-213, ecdf_transformer.py:206-252. -/
noncomputable def BinnerCall.run (s : BinnerObject × Memory) : BinnerCall → BinnerObject × Memory
  | .fit F => ((s.1.fit F).1, s.2)
  | .transform a => (s.1, (s.1.transform s.2 a).1)

end CB
