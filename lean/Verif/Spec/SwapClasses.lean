import Verif.Model.Fit

/-!
# Specification: a classification task with the two classes swapped
-/

set_option autoImplicit false

namespace CB.Spec

/-- The training set in which class 0 is called 1 and class 1 is called 0. -/
def swapClasses (D : TrainSet) : TrainSet := { D with y := fun s => 1 - D.y s }

/-- What is used of the quantile functions of the beta distribution (`betaPpf a b`) and of the standard normal distribution
(`normalPpf`): values strictly between 0 and 1, distinct quantiles at the distinct levels, and symmetry. -/
structure SymmetricQuantiles (betaPpf : ℝ → ℝ → ℝ → ℝ) (normalPpf : ℝ → ℝ) : Prop where
  inside : ∀ a b p, 0 < a → 0 < b → 0 < p → p < 1 → 0 < betaPpf a b p ∧ betaPpf a b p < 1
  beta : ∀ a b p, 0 < a → 0 < b → 0 < p → p < 1 → betaPpf b a (1 - p) = 1 - betaPpf a b p
  normal : ∀ p, 0 < p → p < 1 → normalPpf (1 - p) = -normalPpf p
  normalStrict : ∀ p q, 0 < p → p < q → q < 1 → normalPpf p < normalPpf q

/-- Bin values of the opposite sign are smoothed to values of the opposite sign. -/
def MirroredSmoothers {σ : Type*} (S : Setup σ) (D : TrainSet) : Prop :=
  ∀ f ∈ S.features, ∀ (uncertainties values : ℕ → ℝ) (b : ℕ),
    smoothAtCentres S.base f.2 (bindData D.X D.n f.1.group none).2 (binSum D.n (f.1.cfg D.X D.n).bin D.w)
        uncertainties (fun i => -values i) b =
      (smoothAtCentres S.base f.2 (bindData D.X D.n f.1.group none).2 (binSum D.n (f.1.cfg D.X D.n).bin D.w)
        uncertainties values b).map (- ·)

end CB.Spec
