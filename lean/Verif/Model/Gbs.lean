import Verif.Model.Estimators

/-!
# Model of the regressor for statistical background subtraction

Covers cyclic_boosting/GBSregression.py.
-/

set_option autoImplicit false

namespace CB

open Finset

section
variable {K : Type*} [Field K]

/-- The summand of bin `b`.
Models: cyclic_boosting/GBSregression.py:71-88 (`calc_parameters`). -/
def gbsSummand (regalpha : K) (n : ℕ) (codes : ℕ → ℕ) (y pred w : ℕ → K) (b : ℕ) : K :=
  let sumN := binSum n codes (fun i => (y i - pred i) * w i) b
  let sumD := binSum n codes (fun i => w i * (1 + regalpha)) b + 1
  sumN / sumD

/-- The variance of the summand of bin `b`, before the square root.
Models: cyclic_boosting/GBSregression.py:71-91 (`calc_parameters`). -/
def gbsVariance (regalpha : K) (n : ℕ) (codes : ℕ → ℕ) (y pred w : ℕ → K) (b : ℕ) : K :=
  let nn := fun i => (y i - pred i) * w i
  let d := fun i => w i * (1 + regalpha)
  let sumN := binSum n codes nn b
  let sumD := binSum n codes d b + 1
  let sumND := binSum n codes (fun i => nn i * d i) b
  let sumN2 := binSum n codes (fun i => nn i * nn i) b
  let sumD2 := binSum n codes (fun i => d i * d i) b + 1 ^ 2
  (sumD ^ 2 * sumN2 - 2 * sumN * sumD * sumND + sumN ^ 2 * sumD2) / sumD ^ 4

/-- `_init_global_scale`: the weighted mean of the target.
Models: cyclic_boosting/GBSregression.py:93-96. -/
def gbsGlobalScale (n : ℕ) (y w : ℕ → K) : K :=
  (∑ i ∈ range n, y i * w i) / ∑ i ∈ range n, w i

/-- `loss`: the numerator and the denominator of the quotient that the code
returns.
Models: cyclic_boosting/GBSregression.py:98-101. -/
def gbsLoss [DecidableEq K] (n : ℕ) (pred y w : ℕ → K) : K × K :=
  (∑ i ∈ range n, w i * (pred i - y i) ^ 2,
    ∑ i ∈ range n, (if y i ≠ 0 then 1 else 0) * w i)

end

end CB
