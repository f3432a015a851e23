import Mathlib.Algebra.BigOperators.Group.Finset.Basic
import Mathlib.Data.Real.Basic
import Mathlib.Order.Interval.Finset.Nat

set_option autoImplicit false

/-!
# Specification: weighted least squares fit of a polynomial
-/
namespace CB.Spec
open Finset

/-- The polynomial with the `m` coefficients `c 0, …, c (m-1)`. -/
def poly (m : ℕ) (c : ℕ → ℝ) (t : ℝ) : ℝ := ∑ i ∈ range m, c i * t ^ i

/-- `χ²` of a curve `f` for the points `(x j, y j)` with errors `err j`, `j < n`. -/
noncomputable def chiSquared (n : ℕ) (x y err : ℕ → ℝ) (f : ℝ → ℝ) : ℝ :=
  ∑ j ∈ range n, ((y j - f (x j)) / err j) ^ 2

/-- `v` is the smallest `χ²` that a polynomial with `m` coefficients can reach. -/
def IsBestChi (n : ℕ) (x y err : ℕ → ℝ) (m : ℕ) (v : ℝ) : Prop :=
  (∃ d, chiSquared n x y err (poly m d) = v) ∧ ∀ d, v ≤ chiSquared n x y err (poly m d)

/-- `best k` is the smallest `χ²` with `k + 1` coefficients. How often, for the degrees `2` to `k`, the degree improves
`χ²` by less than 3.84, or the degree together with the one below it improves `χ²` by less than 6. -/
noncomputable def weakTerms (best : ℕ → ℝ) (k : ℕ) : ℕ :=
  open Classical in
  ((Icc 2 k).filter fun i => best (i - 1) - best i < 384 / 100).card +
    ((Icc 2 k).filter fun i => best (i - 2) - best i < 6).card

/-- When degree `k` is considered sufficient: `χ²` is below the number of degrees of freedom, or four signs of
insignificance were found. -/
def sufficient (best : ℕ → ℝ) (n k : ℕ) : Prop :=
  best k < (n : ℝ) - ((k : ℝ) + 1) ∨ 4 ≤ weakTerms best k

end CB.Spec
