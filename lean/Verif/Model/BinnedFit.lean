import Verif.Model.Binning
import Verif.Model.Flags
import Verif.Model.Fit

/-!
# Model of a pipeline: binning followed by an estimator

`pipeline_CB` builds a `BinNumberTransformer` followed by an estimator; `fit` bins the training table and fits the estimator on
the bin numbers, `predict` bins the table with the fitted boundaries. The binner gets no weight column from `pipeline_CB`
(`C48_binner_ignores_weights`), so all its weights are 1.

Simplifications: the feature properties are given as a dictionary, in which the target, weight and prior prediction columns do
not occur; training columns hold finite numbers and missing values, no infinities (an infinite value counts as missing here).
-/

set_option autoImplicit false

namespace CB

/-- What the binner is constructed with; the number of bins may differ from column to column (a dictionary of numbers of bins is
modelled as one that has an entry for every column of the table).
Models: cyclic_boosting/binning/bin_number_transformer.py:122-145, ecdf_transformer.py:199-204. -/
structure Binner where
  nBins : String → ℕ
  props : List (String × ℕ)
  epsilon : ℝ
  tolerance : ℝ

/-- `get_X_column(X, col).astype(float)` for the `n` samples of the training table.
Models: cyclic_boosting/binning/ecdf_transformer.py:218-225. -/
def Table.column (X : Table ℝ) (n : ℕ) (c : String) : List (Option ℝ) := 
  (List.range n).map fun s => match X s c with
    | .fin x => some x
    | _ => none

/-- One column in the loop of `ECdfTransformer.fit`: `none` for a column without feature property (`continue`).
Models: cyclic_boosting/binning/ecdf_transformer.py:216-251, _utils.py:13-43. -/
noncomputable def Binner.fitOne (B : Binner) (X : Table ℝ) (n : ℕ) (c : String) : Option (Except BinErr (ColFit ℝ)) :=
  match B.props.lookup c with
  | none => none
  | some fp =>
    match Flags.checkConsistency fp with
    | .error _ => some (.error .valueError)
    | .ok _ => some (fitColumn (Flags.isSet fp Flags.IS_ORDERED || Flags.isSet fp Flags.IS_UNORDERED) (X.column n c)
        (List.replicate n 1) (B.nBins c) B.epsilon B.tolerance)

/-- The loop of `ECdfTransformer.fit` over the columns of the table.
Models: cyclic_boosting/binning/ecdf_transformer.py:216-251. -/
noncomputable def Binner.fitColumns (B : Binner) (X : Table ℝ) (n : ℕ) :
    List String → Except BinErr (List (String × ColFit ℝ))
  | [] => .ok []
  | c :: cs =>
    match B.fitOne X n c with
    | none => B.fitColumns X n cs
    | some (.error e) => .error e
    | some (.ok f) =>
      match B.fitColumns X n cs with
      | .error e => .error e
      | .ok rest => .ok ((c, f) :: rest)

/-- `ECdfTransformer.fit` (inherited by `BinNumberTransformer`) on a table of `n` samples with the given columns; a table without rows or
without columns is empty.
Models: cyclic_boosting/binning/ecdf_transformer.py:206-252, _utils.py:103-113. -/
noncomputable def Binner.fit (B : Binner) (columns : List String) (X : Table ℝ) (n : ℕ) :
    Except BinErr (List (String × ColFit ℝ)) :=
  if n = 0 ∨ columns = [] then .error .valueError else B.fitColumns X n columns

/-- `BinNumberTransformer.transform` for one entry of the table: entries of other columns than the fitted ones stay as they are.
Models: cyclic_boosting/binning/bin_number_transformer.py:147-213. -/
noncomputable def Binner.cell (B : Binner) (fitted : List (String × ColFit ℝ)) (c : String) (x : Flt ℝ) :
    Except BinErr (Flt ℝ) :=
  match fitted.lookup c, B.props.lookup c with
  | some f, some fp =>
    match binNumber (Flags.isSet fp Flags.IS_CONTINUOUS) (Flags.isSet fp Flags.HAS_MAGIC_INT_MISSING) f.eps
        (f.table.map Prod.fst) x with
    | .error e => .error e
    | .ok i => .ok (.fin (i : ℝ))
  | _, _ => .ok x

open Classical in
/-- `BinNumberTransformer.transform` for a table of `n` samples: fails if an entry does.
Models: cyclic_boosting/binning/bin_number_transformer.py:179-213. -/
noncomputable def Binner.transform (B : Binner) (fitted : List (String × ColFit ℝ)) (X : Table ℝ) (n : ℕ) :
    Except BinErr (Table ℝ) :=
  if ∀ s < n, ∀ c, ∃ v, B.cell fitted c (X s c) = .ok v then
    .ok fun s c => match B.cell fitted c (X s c) with
      | .ok v => v
      | .error _ => .nan
  else .error .indexError

/-- The ways the fit of a pipeline can fail.
Models: cyclic_boosting/pipelines.py:173-177 (scikit-learn's `Pipeline.fit`). -/
inductive PipelineErr where
  | binning (e : BinErr)
  | fit (e : FitErr)
  deriving DecidableEq, Repr

/-- A fitted pipeline.
Models: cyclic_boosting/pipelines.py:173-177. -/
structure FittedPipeline where
  bins : List (String × ColFit ℝ)
  model : FittedModel

section
variable {σ : Type*}

/-- `fit` of the pipeline on raw data: fit the binner, transform the table, fit the estimator on it.
Models: cyclic_boosting/pipelines.py:173-177. -/
noncomputable def pipelineFit (B : Binner) (columns : List String) (S : Setup σ) (E : Estimator) (D : TrainSet) (fuel : ℕ) :
    Option (Except PipelineErr FittedPipeline) :=
  match B.fit columns D.X D.n with
  | .error e => some (.error (.binning e))
  | .ok bins =>
    match B.transform bins D.X D.n with
    | .error e => some (.error (.binning e))
    | .ok Xt =>
      match S.fit E { D with X := Xt } fuel with
      | none => none
      | some (.error e) => some (.error (.fit e))
      | some (.ok m) => some (.ok ⟨bins, m⟩)

end

/-- `predict` of the fitted pipeline on raw data of `n` samples.
Models: cyclic_boosting/pipelines.py:173-177. -/
noncomputable def FittedPipeline.predict (P : FittedPipeline) (B : Binner) (prior : Option (ℕ → Flt ℝ)) (X : Table ℝ) (n : ℕ) :
    Except BinErr (ℕ → ℝ) :=
  match B.transform P.bins X n with
  | .error e => .error e
  | .ok Xt => .ok (P.model.predict prior Xt)

end CB
