import Verif.Model.Fit

/-!
# Specification: a training set and an estimator in other units of the target
-/

set_option autoImplicit false

namespace CB.Spec
open Finset

/-- A float multiplied by a number that is not 0. -/
noncomputable def inUnits (c : ℝ) : Flt ℝ → Flt ℝ
  | .fin x => .fin (c * x)
  | .nan => .nan
  | .pinf => if 0 < c then .pinf else .ninf
  | .ninf => if 0 < c then .ninf else .pinf

/-- A column of prior predictions in other units. -/
noncomputable def priorInUnits (c : ℝ) (prior : Option (ℕ → Flt ℝ)) : Option (ℕ → Flt ℝ) := prior.map fun q s => inUnits c (q s)

/-- The training set with all targets and prior predictions multiplied by `c`. -/
noncomputable def dataInUnits (c : ℝ) (D : TrainSet) : TrainSet :=
  { D with y := fun s => c * D.y s, prior := priorInUnits c D.prior }

/-- The estimator whose `minimal_factor_change`, an absolute number, is in the new units too. -/
noncomputable def setupInUnits {σ : Type*} (c : ℝ) (S : Setup σ) : Setup σ :=
  { S with params := { S.params with minimalFactorChange := |c| * S.params.minimalFactorChange } }

/-- Bin values multiplied by `c`, with uncertainties multiplied by its absolute value, are smoothed to values multiplied by `c`. -/
def HomogeneousSmoothers {σ : Type*} (S : Setup σ) (D : TrainSet) (c : ℝ) : Prop :=
  ∀ f ∈ S.features, ∀ (uncertainties values : ℕ → ℝ) (b : ℕ),
    smoothAtCentres S.base f.2 (bindData D.X D.n f.1.group none).2 (binSum D.n (f.1.cfg D.X D.n).bin D.w)
        (fun i => |c| * uncertainties i) (fun i => c * values i) b =
      (smoothAtCentres S.base f.2 (bindData D.X D.n f.1.group none).2 (binSum D.n (f.1.cfg D.X D.n).bin D.w)
        uncertainties values b).map (c * ·)

/-- Smoothers that follow every change of units: bin values, orthogonal polynomials, and what is made of these by grouping,
normalization and regression types. -/
def followsUnits : SmootherKind → Bool
  | .binValuesOne => true
  | .binValuesMany => true
  | .orthogonalPolynomial => true
  | .groupByCB s _ => followsUnits s
  | .normalization s => followsUnits s
  | .regressionType s _ => followsUnits s
  | .normalizationRegressionType s _ => followsUnits s
  | _ => false

/-- Smoothers that follow a change of the sign: those above, the weighted means and the linear extrapolator (these three compare
with absolute numbers, so that a change of units can make a difference). -/
def followsSign : SmootherKind → Bool
  | .binValuesOne => true
  | .binValuesMany => true
  | .orthogonalPolynomial => true
  | .weightedMean => true
  | .weightedMeanNeighbors => true
  | .weightedMeanMulti => true
  | .linearExtrapolator => true
  | .groupByCB s _ => followsSign s
  | .normalization s => followsSign s
  | .regressionType s _ => followsSign s
  | .normalizationRegressionType s _ => followsSign s
  | _ => false

end CB.Spec
