import Mathlib.Algebra.BigOperators.Group.Finset.Basic
import Mathlib.Algebra.Order.Field.Basic

set_option autoImplicit false

/-!
Specifications of the estimators, from the documentation of `calc_factors_generic` and `linear_regression`.
-/
namespace CB.Spec
open Finset

variable {K : Type*} [Field K]

/-- The penalised squared error of the estimate `t` for bin `b`: samples `i < n` of this bin with values `x i` and weights
`w i`, prior mean `x0` with precision `w0`. -/
def chi2 (n : ℕ) (codes : ℕ → ℕ) (x w : ℕ → K) (x0 w0 : K) (b : ℕ) (t : K) : K :=
  (∑ i ∈ (range n).filter (fun i => codes i = b), w i * (x i - t) ^ 2) + w0 * (t - x0) ^ 2

/-- The weighted squared error of the line `a + b x`. -/
def squaredError (n : ℕ) (x y w : ℕ → K) (a b : K) : K := ∑ i ∈ range n, w i * (y i - (a + b * x i)) ^ 2

end CB.Spec
