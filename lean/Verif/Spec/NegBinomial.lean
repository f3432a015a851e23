import Mathlib.Analysis.SpecialFunctions.Pow.Real
import Mathlib.Algebra.BigOperators.Group.Finset.Basic

set_option autoImplicit false

/-!
The negative binomial distribution with real parameter `n`, as `scipy.stats.nbinom(n, p)` defines it.
-/
namespace CB.Spec

/-- `n (n + 1) ... (n + k - 1) / k!`, the number of combinations for real `n`. -/
noncomputable def nbinomCoeff (n : ℝ) (k : ℕ) : ℝ := ∏ i ∈ Finset.range k, (n + i) / (i + 1)

/-- Probability of the value `k`. -/
noncomputable def nbinomPmf (n p : ℝ) (k : ℕ) : ℝ := nbinomCoeff n k * p ^ n * (1 - p) ^ k

end CB.Spec
