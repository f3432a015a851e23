import Verif.Spec.Settling

/-!
# Specification: a training set whose target is a combination of two others
-/

set_option autoImplicit false

namespace CB.Spec

/-- Prior predictions that are `α` times the first plus `β` times the second ones: either nobody has such a column, or for every
sample the numbers are finite and combined, or no one has a finite number. -/
def MixedPriors (α β : ℝ) (p₁ p₂ p : Option (ℕ → Flt ℝ)) : Prop :=
  (p₁ = none ∧ p₂ = none ∧ p = none) ∨
  ∃ q₁ q₂ q, p₁ = some q₁ ∧ p₂ = some q₂ ∧ p = some q ∧ ∀ i,
    (∃ x z, q₁ i = .fin x ∧ q₂ i = .fin z ∧ q i = .fin (α * x + β * z)) ∨
    ((q₁ i).isFinite = false ∧ (q₂ i).isFinite = false ∧ (q i).isFinite = false)

/-- The same samples, features and weights three times; the target of the third training set is `α` times the target of the first plus
`β` times the target of the second. -/
structure Mixture (α β : ℝ) (D₁ D₂ D : TrainSet) : Prop where
  table₁ : D₁.X = D.X
  table₂ : D₂.X = D.X
  samples₁ : D₁.n = D.n
  samples₂ : D₂.n = D.n
  weights₁ : D₁.w = D.w
  weights₂ : D₂.w = D.w
  target : ∀ i < D.n, D.y i = α * D₁.y i + β * D₂.y i
  priors : MixedPriors α β D₁.prior D₂.prior D.prior

/-- Smoothers that smooth a combination of bin values to the same combination of smoothed values, whatever the uncertainties are. -/
def SuperposingSmoothers {σ : Type*} (S : Setup σ) (D : TrainSet) : Prop :=
  ∀ f ∈ S.features, ∀ (u₁ u₂ u v₁ v₂ : ℕ → ℝ) (α β : ℝ), ∀ b < (f.1.cfg D.X D.n).nFinite,
    smoothAtCentres S.base f.2 (bindData D.X D.n f.1.group none).2 (binSum D.n (f.1.cfg D.X D.n).bin D.w) u
        (fun i => α * v₁ i + β * v₂ i) b =
      Option.map₂ (fun x z => α * x + β * z)
        (smoothAtCentres S.base f.2 (bindData D.X D.n f.1.group none).2 (binSum D.n (f.1.cfg D.X D.n).bin D.w) u₁ v₁ b)
        (smoothAtCentres S.base f.2 (bindData D.X D.n f.1.group none).2 (binSum D.n (f.1.cfg D.X D.n).bin D.w) u₂ v₂ b)

/-- The training set with the target set to 0 for all samples outside a group. -/
noncomputable def onlyGroup (D : TrainSet) (inGroup : ℕ → Bool) : TrainSet :=
  { D with y := fun i => if inGroup i then D.y i else 0 }

/-- The training set of the background subtraction: positive targets for the samples of the first group, negative ones for the others. -/
noncomputable def subtractGroup (D : TrainSet) (inGroup : ℕ → Bool) : TrainSet :=
  { D with y := fun i => if inGroup i then D.y i else -D.y i }

end CB.Spec
