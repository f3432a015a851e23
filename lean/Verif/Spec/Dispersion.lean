import Verif.Spec.Fit
import Verif.Spec.NegBinomial

/-!
# Specification: training of the dispersion of the negative binomial distribution
-/

set_option autoImplicit false

namespace CB.Spec
open Finset

/-- Negative log-likelihood of a count for a negative binomial distribution with mean `mu` and dispersion `c`: success probability
`p = 1 / (1 + c mu)`, at most `1 - 1e-8`, and `n = mu p / (1 - p)`. -/
noncomputable def negLogLikelihood (mu c : ℝ) (count : ℕ) : ℝ :=
  let p := min (1 / (1 + c * mu)) (1 - 1e-8);
  -Real.log (nbinomPmf (mu * p / (1 - p)) p count)

/-- The mean over `n` samples of the negative log-likelihood plus a penalty of `gamma` times the dispersion. -/
noncomputable def dispersionCost (gamma : ℝ) (n : ℕ) (counts : ℕ → ℕ) (mu c : ℕ → ℝ) : ℝ :=
  (∑ i ∈ range n, (negLogLikelihood (mu i) (c i) (counts i) + gamma * |c i|)) / n

end CB.Spec
