import Verif.Model.GenericFit

/-!
# Specification: weights in another unit
-/

set_option autoImplicit false

namespace CB.Spec

/-- The same training set with all weights multiplied by `c`. -/
noncomputable def weightsTimes (c : ℝ) (D : TrainSet) : TrainSet := { D with w := fun i => c * D.w i }

/-- Costs that depend on the relative sizes of the weights only. -/
def ScaleFreeCosts (costs : List (ℝ × ℝ × ℝ) → Flt ℝ) : Prop :=
  ∀ (c : ℝ) (l : List (ℝ × ℝ × ℝ)), 0 < c → costs (l.map fun s => (s.1, s.2.1, c * s.2.2)) = costs l

/-- Smoothers that do not look at the uncertainties and for which multiplying all weights by `c` changes nothing. -/
def WeightBlindSmoothers {σ : Type*} (S : Setup σ) (D : TrainSet) (c : ℝ) : Prop :=
  ∀ f ∈ S.features, ∀ (u u' v : ℕ → ℝ) (b : ℕ),
    smoothAtCentres S.base f.2 (bindData D.X D.n f.1.group none).2 (fun b => c * binSum D.n (f.1.cfg D.X D.n).bin D.w b) u' v b =
      smoothAtCentres S.base f.2 (bindData D.X D.n f.1.group none).2 (binSum D.n (f.1.cfg D.X D.n).bin D.w) u v b

end CB.Spec
