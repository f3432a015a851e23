import Verif.Model.Api
import Verif.Model.PriceFit

/-!
# Specification: other stopping criteria for the same training (C136)
-/

set_option autoImplicit false

namespace CB.Spec

/-- The three arguments of an estimator that say when training stops: `maximal_iterations`, `minimal_factor_change` and
`minimal_loss_change`. -/
structure Limits where
  iterations : ℕ
  factorChange : ℝ
  lossChange : ℝ

/-- The same parameters with other stopping criteria. -/
def paramsWith (p : Params ℝ) (L : Limits) : Params ℝ :=
  { p with maximalIterations := L.iterations, minimalFactorChange := L.factorChange, minimalLossChange := L.lossChange }

/-- The same constructor arguments with other stopping criteria. -/
def configWith {σ : Type*} (C : Config σ) (L : Limits) : Config σ := { C with params := paramsWith C.params L }

/-- The same constructor arguments of a price model with other stopping criteria. -/
def priceWith {σ : Type*} (P : PriceConfig σ) (L : Limits) : PriceConfig σ := { P with config := configWith P.config L }

/-- `L` stops no later than `L'`: at most as many iterations, and larger changes count as small. -/
def Looser (L L' : Limits) : Prop :=
  L.iterations ≤ L'.iterations ∧ L'.factorChange ≤ L.factorChange ∧ L'.lossChange ≤ L.lossChange

/-- The learning rates do not depend on `maximal_iterations`: the user gave a learning rate, or there are hierarchical feature
groups (where the learning rate is 1). The default learning rate rises until half of `maximal_iterations`. -/
def OwnLearnRate {σ : Type*} (C : Config σ) : Prop := C.learnRate.isSome = true ∨ C.params.hierarchical.isSome = true

/-- A function of the stopping criteria (and a bound on the number of iterations) that behaves as C136 says. -/
structure OnlyLimits {ε α : Type*} (f : Limits → ℕ → Option (Except ε α)) (iterations : α → ℕ) (diverged : ε) : Prop where
  limit : ∀ L N fuel m, f L fuel = some (.ok m) → iterations m < L.iterations → iterations m ≤ N →
    f { L with iterations := N } fuel = some (.ok m)
  failed : ∀ L L' fuel, Looser L L' → f L fuel = some (.error diverged) → f L' fuel = some (.error diverged)
  looser : ∀ L L' fuel fuel' m m', Looser L L' → f L fuel = some (.ok m) → f L' fuel' = some (.ok m') →
    iterations m ≤ iterations m'
  same : ∀ L L' fuel fuel' m m', f L fuel = some (.ok m) → f L' fuel' = some (.ok m') → iterations m = iterations m' → m = m'

end CB.Spec
