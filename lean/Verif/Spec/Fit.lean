import Verif.Model.Fit
import Verif.Spec.Training

/-!
# Specification: histories of a whole fit
-/

set_option autoImplicit false

namespace CB.Spec

/-- The prediction in link space with which training starts, for the global scale `a`. -/
noncomputable def baseline (E : Estimator) (D : TrainSet) (a : ℝ) (s : ℕ) : ℝ :=
  (priorPrediction E.link (.fin a) (E.offset D) D.prior s).getFin

/-- In no iteration of the training does the loss exceed twice its initial value. -/
def NeverDiverges {σ : Type*} (S : Setup σ) (E : Estimator) (D : TrainSet) : Prop :=
  ∀ a, E.scale D.n D.y D.w = .fin a → ∀ past s,
    Trace (S.paramsFor E) (S.oracle E D) (S.cfgs D) (startState (S.oracle E D) (S.cfgs D) (baseline E D a)) past s →
    s.diverging = 0

end CB.Spec
