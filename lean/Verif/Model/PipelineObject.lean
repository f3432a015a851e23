import Verif.Model.BinnerObject

/-!
# Model of a pipeline as an object

A pipeline of a binner and an estimator. `fit` fits the binner, bins the table and fits the estimator to it; the steps are the objects of the
pipeline and keep what they have learned if a later step raises.

Simplifications: as in Model/BinnerObject and Model/Api. What a binner with `inplace=True` does to the table of the caller is not repeated here.
-/

set_option autoImplicit false

namespace CB

/-- The steps of the pipeline.
Models: cyclic_boosting/pipelines.py:175-177. -/
structure PipelineObject where
  binner : BinnerObject
  estimator : EstimatorObject

/-- The exceptions of the steps.
Models: cyclic_boosting/pipelines.py:175-177 (the methods of scikit-learn's `Pipeline`). -/
inductive PipelineFailure where
  | binnerFit (e : BinErr)
  | binnerTransform (e : TransformErr)
  | estimator (e : ApiErr)
  deriving DecidableEq, Repr

/-- The table that `transform` returns.
Models: cyclic_boosting/binning/bin_number_transformer.py:179-213. -/
noncomputable def BinnerObject.binnedTable (o : BinnerObject) (F : DataFrame) : Except TransformErr DataFrame :=
  match o.transform ⟨fun _ => F, 1⟩ 0 with
  | (m, .ok a) => .ok (m.frames a)
  | (_, .error e) => .error e

section
variable {σ : Type*}

/-- The constructor.
Models: cyclic_boosting/pipelines.py:175-177. -/
noncomputable def PipelineObject.construct (B : Binner) (inplace : Bool) (C : Config σ) : Except ApiErr PipelineObject :=
  match C.construct with
  | .error e => .error e
  | .ok o => .ok ⟨BinnerObject.new B none inplace, o⟩

/-- `fit`: the pipeline afterwards and whether it raised; `none` if `fuel` iterations are not enough.
Models: cyclic_boosting/pipelines.py:175-177 (scikit-learn's `Pipeline.fit`, which fits the steps themselves if nothing is cached). -/
noncomputable def PipelineObject.fit (P : PipelineObject) (C : Config σ) (E : Estimator) (F : DataFrame) (y : ℕ → ℝ) (fuel : ℕ) :
    Option (PipelineObject × Except PipelineFailure Unit) :=
  match P.binner.fit F with
  | (binner, some e) => some (⟨binner, P.estimator⟩, .error (.binnerFit e))
  | (binner, none) =>
    match binner.binnedTable F with
    | .error e => some (⟨binner, P.estimator⟩, .error (.binnerTransform e))
    | .ok G =>
      match P.estimator.fit C E G y fuel with
      | none => none
      | some (estimator, .error e) => some (⟨binner, estimator⟩, .error (.estimator e))
      | some (estimator, .ok _) => some (⟨binner, estimator⟩, .ok ())

/-- `predict`; `none` is behaviour that is not modelled (see `EstimatorObject.predict`).
Models: cyclic_boosting/pipelines.py:175-177 (scikit-learn's `Pipeline.predict`). -/
noncomputable def PipelineObject.predict (P : PipelineObject) (C : Config σ) (F : DataFrame) : Option (Except PipelineFailure (ℕ → ℝ)) :=
  match P.binner.binnedTable F with
  | .error e => some (.error (.binnerTransform e))
  | .ok G =>
    match P.estimator.predict C G with
    | none => none
    | some (.error e) => some (.error (.estimator e))
    | some (.ok p) => some (.ok p)

end

end CB
