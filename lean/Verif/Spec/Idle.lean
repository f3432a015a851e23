import Verif.Spec.Fit

/-!
# Training that has nothing to learn
-/

set_option autoImplicit false

namespace CB.Spec
open Finset

/-- For the running prediction `pred` (in link space) the estimates of all bins of all features are neutral. -/
def NothingToLearn {σ : Type*} (S : Setup σ) (E : Estimator) (D : TrainSet) (pred : ℕ → ℝ) : Prop :=
  ∀ f ∈ S.features, ∀ it, ∀ b ≤ (f.1.cfg D.X D.n).nFinite, (E.parameters it D.n (f.1.cfg D.X D.n).bin D.y D.w pred b).1 = 0

/-- Smoothers that make nothing out of nothing: if the values of all bins are 0, so are the smoothed values. -/
def SmoothersKeepZero {σ : Type*} (S : Setup σ) (D : TrainSet) : Prop :=
  ∀ f ∈ S.features, ∀ uncertainties values : ℕ → ℝ, (∀ b < (f.1.cfg D.X D.n).nFinite, values b = 0) →
    ∀ b < (f.1.cfg D.X D.n).nFinite, ∀ v : ℝ,
    smoothAtCentres S.base f.2 (bindData D.X D.n f.1.group none).2 (binSum D.n (f.1.cfg D.X D.n).bin D.w) uncertainties values b
      = some v → v = 0

/-- An optimiser that returns its start value if no value is better. -/
def StaysPut (minimize : (ℝ → Flt ℝ) → ℝ → ℝ) : Prop :=
  ∀ (f : ℝ → Flt ℝ) (start a : ℝ), f start = .fin a → (∀ z c, f z = .fin c → a ≤ c) → minimize f start = start

end CB.Spec
