import Verif.Model.Fit
import Verif.Model.GenericFit

/-!
# Specification: training sets made of the same rows
-/

set_option autoImplicit false

namespace CB.Spec
open Finset

/-- What the model may look at in sample `s`: the entries of the columns `cols`, the target and the prior prediction. -/
def sampleRow (D : TrainSet) (cols : List String) (s : ℕ) : (String → Flt ℝ) × ℝ × Option (Flt ℝ) :=
  (fun c => if c ∈ cols then D.X s c else .nan, D.y s, D.prior.map fun q => q s)

open Classical in
/-- Total weight of the samples with row `r`. -/
noncomputable def rowWeight (D : TrainSet) (cols : List String) (r : (String → Flt ℝ) × ℝ × Option (Flt ℝ)) : ℝ :=
  ∑ s ∈ range D.n, if sampleRow D cols s = r then D.w s else 0

/-- The same rows occur in both training sets, with the same total weights. Numbers of samples and order may differ. -/
structure SameWeightedRows (cols : List String) (D D' : TrainSet) : Prop where
  prior : D.prior.isSome = D'.prior.isSome
  rows : ∀ r, (∃ s < D.n, sampleRow D cols s = r) ↔ ∃ s < D'.n, sampleRow D' cols s = r
  weights : ∀ r, rowWeight D cols r = rowWeight D' cols r

/-- All columns that the features use. -/
def usedColumns {σ : Type*} (S : Setup σ) : List String := S.features.flatMap fun f => f.1.group

/-- The training set whose sample `s` is sample `φ s` of `D`, with new weights. -/
def resample (D : TrainSet) (φ : ℕ → ℕ) (n : ℕ) (w : ℕ → ℝ) : TrainSet :=
  ⟨fun s => D.X (φ s), n, fun s => D.y (φ s), w, D.prior.map fun q s => q (φ s)⟩

/-- The estimators that treat the weight of a sample like a number of repetitions. -/
inductive Frequency : Estimator → Prop
  | poisson (g : ℝ → ℝ) : Frequency (poissonEstimator g)
  | nbinom (g : ℝ → ℝ) (a c : ℝ) : Frequency (nbinomEstimator g a c)
  | classifier (ppf : ℝ → ℝ → ℝ → ℝ) (coef : ℝ → ℝ) : Frequency (classifierEstimator ppf coef)

/-- All modelled estimators. -/
inductive Modelled : Estimator → Prop
  | poisson (g : ℝ → ℝ) : Modelled (poissonEstimator g)
  | nbinom (g : ℝ → ℝ) (a c : ℝ) : Modelled (nbinomEstimator g a c)
  | classifier (ppf : ℝ → ℝ → ℝ → ℝ) (coef : ℝ → ℝ) : Modelled (classifierEstimator ppf coef)
  | location : Modelled locationEstimator
  | locPoisson : Modelled locPoissonEstimator
  | gbs (regalpha : ℝ) : Modelled (gbsEstimator regalpha)

/-- The estimators of `generic_loss.py`. User-defined costs may look at the samples in any way that does not depend on their
order. -/
inductive Optimising : Estimator → Prop
  | quantile (multiplicative : Bool) (quantile : ℝ) (minimize : (ℝ → Flt ℝ) → ℝ → ℝ) :
      Optimising (quantileEstimator multiplicative quantile minimize)
  | generic (multiplicative : Bool) (costs : List (ℝ × ℝ × ℝ) → Flt ℝ) (minimize : (ℝ → Flt ℝ) → ℝ → ℝ)
      (hcosts : ∀ l l', l.Perm l' → costs l = costs l') : Optimising (genericEstimator multiplicative costs minimize)
  | classifier (ppf : ℝ → ℝ → ℝ → ℝ) (coef : ℝ → ℝ) (costs : List (ℝ × ℝ × ℝ) → Flt ℝ) (minimize : (ℝ → Flt ℝ) → ℝ → ℝ)
      (hcosts : ∀ l l', l.Perm l' → costs l = costs l') : Optimising (genericClassifierEstimator ppf coef costs minimize)

end CB.Spec
