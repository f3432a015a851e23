import Verif.Model.Flt
import Mathlib.Algebra.BigOperators.Group.Finset.Basic
import Mathlib.Algebra.Order.Field.Basic
import Mathlib.Algebra.Order.Group.Unbundled.Abs
import Mathlib.Analysis.SpecialFunctions.Sqrt
import Mathlib.Data.Real.Sign

set_option autoImplicit false

/-!
Model of the regularisation functions of `cyclic_boosting/utils.py`. The values of `n` bins are functions `ℕ → K`.
-/
namespace CB
open Finset

section
variable {K : Type*} [Field K] [LinearOrder K]

/-- `np.allclose(x, c)` for a number `c` with the default tolerances.
Models: cyclic_boosting/utils.py:837,843. -/
def allclose (n : ℕ) (x : ℕ → K) (c : K) : Bool :=
  (List.range n).all (fun i => decide (|x i - c| ≤ 1 / 10 ^ 8 + 1 / 10 ^ 5 * |c|))

/-- `x_mean` of `regularize_to_error_weighted_mean`, `utils.py` lines 832-843 (the early returns are in
`regularizeToMean`). -/
def regMeanTarget (n : ℕ) (x u : ℕ → K) (prior : Option K) : K :=
  let wx : ℕ → K := fun i => 1 / u i ^ 2
  match prior with
  | none => (∑ i ∈ range n, wx i * x i) / ∑ i ∈ range n, wx i
  | some p => p

/-- `regularize_to_error_weighted_mean` for arrays of the same length `n`, `utils.py` lines 825-848. -/
def regularizeToMean (n : ℕ) (x u : ℕ → K) (prior : Option K) : ℕ → K :=
  if n < 1 ∨ (prior = none ∧ n = 1) then x
  else if allclose n x (prior.getD (x 0)) then x
  else
    let wx : ℕ → K := fun i => 1 / u i ^ 2
    let sumWx := ∑ i ∈ range n, wx i
    let xMean := regMeanTarget n x u prior
    let wxIncl := 1 / ((∑ i ∈ range n, wx i * (x i - xMean) ^ 2) / sumWx)
    fun i => (wx i * x i + wxIncl * xMean) / (wx i + wxIncl)

/-- `np.convolve(a, np.ones(3), "same")[i]` for an array of length at least 3.
Models: cyclic_boosting/utils.py:874-891. -/
def windowSum (n : ℕ) (a : ℕ → K) (i : ℕ) : K :=
  ∑ j ∈ (range n).filter (fun j => j ≤ i + 1 ∧ i ≤ j + 1), a j

/-- `regularize_to_error_weighted_mean_neighbors` with `window_size=3`, `utils.py` lines 874-891. A window without weight
(0/0) and a window without variation (the division by zero gives `wx_incl = inf`, and `inf / inf`) give NaN. -/
def regularizeToMeanNeighbors (n : ℕ) (x u : ℕ → K) : ℕ → Flt K :=
  if n < 3 then fun i => .fin (regularizeToMean n x u none i)
  else fun i =>
    let wx : ℕ → K := fun j => if 0 < u j then 1 / u j ^ 2 else 0
    let sumWx := windowSum n wx i
    if sumWx = 0 then .nan
    else
      let xMean := windowSum n (fun j => wx j * x j) i / sumWx
      let dev := windowSum n (fun j => wx j * (x j - xMean) ^ 2) i
      if dev = 0 then .nan
      else
        let wxIncl := sumWx / dev
        .fin ((wx i * x i + wxIncl * xMean) / (wx i + wxIncl))

end

/-- `regularize_to_prior_expectation` for one value, `utils.py` lines 713-759. -/
noncomputable def regularizeToPrior (value uncertainty prior threshold : ℝ) : ℝ :=
  let significance := (value - prior) / uncertainty
  prior + uncertainty *
    (if |significance| > threshold then Real.sign significance * Real.sqrt |significance ^ 2 - threshold ^ 2| else 0)

end CB
