import Verif.Model.Fit
import Verif.Model.Nbinom
import Verif.Model.Api

/-!
# The dispersion model `CBNBinomC` in whole fits
-/

set_option autoImplicit false

namespace CB
open Finset

noncomputable section

/-- The arguments that only `CBNBinomC` has.
Models: cyclic_boosting/nbinom.py:64-97. -/
structure DispersionArgs where
  meanColumn : String
  gamma : ℝ
  bayes : Bool
  nSteps : ℕ

/-- `CBNBinomC` while it is fitted, with the means `mu` of the samples.
Models: cyclic_boosting/nbinom.py:101-134,154-158. -/
def dispersionEstimator (A : DispersionArgs) (mu : ℕ → ℝ) : Estimator where
  link := .logit
  valid y := 0 ≤ y
  scale _ _ _ := .fin 0
  shiftPrior := false
  parameters it n codes y _ pred b := nbinomCCalcParameters nbinomLogPmf A.gamma A.bayes A.nSteps it n codes y mu pred b
  calibrate _ _ factors := factors
  loss n prediction y _ := .fin (lossNbinomC nbinomLogPmf A.gamma n y mu prediction)

/-- `np.clip(x, 0, 1)`.
Models: cyclic_boosting/nbinom.py:147. -/
def clipUnit : Flt ℝ → Flt ℝ
  | .fin x => .fin (clipTo x 0 1)
  | .pinf => .fin 1
  | .ninf => .fin 0
  | .nan => .nan

/-- The prior predictions as `CBNBinomC` sees them. The code clips the array in place, which may be the column of the caller's
table (see `SharedArrays.dispersionPrior`).
Models: cyclic_boosting/nbinom.py:142-152. -/
def TrainSet.clipPrior (D : TrainSet) : TrainSet := { D with prior := D.prior.map fun q s => clipUnit (q s) }

/-- `CBNBinomC.fit` of a training set with means `mu`.
Models: cyclic_boosting/nbinom.py:136-140, base.py:818-830. -/
def dispersionFit {σ : Type*} (S : Setup σ) (A : DispersionArgs) (mu : ℕ → ℝ) (D : TrainSet) (fuel : ℕ) :
    Option (Except FitErr FittedModel) := S.fit (dispersionEstimator A mu) D.clipPrior fuel

/-- `CBNBinomC.predict`.
Models: cyclic_boosting/nbinom.py:142-152, base.py:839-856. -/
def dispersionPredict (m : FittedModel) (prior : Option (ℕ → Flt ℝ)) (X : Table ℝ) (s : ℕ) : ℝ :=
  m.predict (prior.map fun q s => clipUnit (q s)) X s

/-- An estimator object of class `CBNBinomC`; `mu` is an attribute only during a fit and after a fit that raised.
Models: cyclic_boosting/nbinom.py:136-140. -/
structure DispersionObject where
  base : EstimatorObject
  mu : Option (ℕ → ℝ)

/-- Exceptions of `CBNBinomC`.
Models: cyclic_boosting/nbinom.py:111-140. -/
inductive DispersionErr where
  | api (e : ApiErr)
  | attributeError
  deriving DecidableEq, Repr

variable {σ : Type*}

/-- The column of the means. Simplification: means are finite.
Models: cyclic_boosting/nbinom.py:137. -/
def DispersionArgs.mean (A : DispersionArgs) (F : DataFrame) (s : ℕ) : ℝ := (F.X s A.meanColumn).getFin

/-- `CBNBinomC.fit`.
Models: cyclic_boosting/nbinom.py:136-140, base.py:694-711, 748-752, 818-830. -/
def DispersionObject.fit (o : DispersionObject) (C : Config σ) (A : DispersionArgs) (F : DataFrame) (y : ℕ → ℝ) (fuel : ℕ) :
    Option (DispersionObject × Except DispersionErr Unit) :=
  if F.has [A.meanColumn] = false then some (o, .error (.api .keyError))
  else
    match o.base.initFit C (dispersionEstimator A (A.mean F)) F y with
    | (b, .error e) => some (⟨b, some (A.mean F)⟩, .error (.api e))
    | (b, .ok features) =>
      match dispersionFit (C.setup features) A (A.mean F) (C.trainSet F y) fuel with
      | none => none
      | some (.error e) => some (⟨b, some (A.mean F)⟩, .error (.api (.training e)))
      | some (.ok m) =>
        some (⟨{ b with status := .fitted m, importances := setFeatureImportances b.importances (modelImportances F m) }, none⟩,
          .ok ())

/-- `predict` of a fitted object; `none` is behaviour that is not modelled.
Models: cyclic_boosting/base.py:839-856, nbinom.py:142-152. -/
def DispersionObject.predict (o : DispersionObject) (C : Config σ) (F : DataFrame) : Option (Except ApiErr (ℕ → ℝ)) :=
  match o.base.checkFitted with
  | .error e => some (.error e)
  | .ok _ =>
    match o.base.status with
    | .fitted m =>
      if F.has (C.priorColumn.toList ++ m.features.flatMap fun f => f.group) then
        some (.ok (dispersionPredict m (C.prior F) F.X))
      else some (.error .keyError)
    | _ => none

/-- `fit_transform` is the one of the base class, which calls `_fit_predict` and not `fit`, so that nothing sets `mu`. The means
that a fit may have left that raised before are not modelled (`none`).
Models: cyclic_boosting/base.py:858-867, nbinom.py:111-134. -/
def DispersionObject.fitTransform (o : DispersionObject) (C : Config σ) (A : DispersionArgs) (F : DataFrame) (y : ℕ → ℝ) :
    Option (DispersionObject × Except DispersionErr DataFrame) :=
  match C.checkOutput F with
  | .error e => some (o, .error (.api e))
  | .ok _ =>
    match o.mu with
    | some _ => none
    | none =>
      match o.base.initFit C (dispersionEstimator A fun _ => 0) F y with
      | (b, .error e) => some (⟨b, none⟩, .error (.api e))
      | (b, .ok _) => some (⟨b, none⟩, .error .attributeError)

end

end CB
