import Mathlib.Algebra.Order.Field.Basic
import Mathlib.Algebra.BigOperators.Group.Finset.Basic
import Mathlib.Algebra.Order.Group.Unbundled.Abs

/-!
# Model of `neutralize_one_dim_influence`

Covers cyclic_boosting/utils.py:894-930.  A table with `n` rows and `m` columns is a function
of the row and the column.  Division by a row or column without weight gives 0 in the
model and NaN in the code; the theorems exclude it.
-/

set_option autoImplicit false

open Finset

namespace CB

section
variable {K : Type*} [Field K] [LinearOrder K]

/-- Weighted sum of a row.
Models: cyclic_boosting/utils.py:909, 926. -/
def rowSum (m : ℕ) (u v : ℕ → ℕ → K) (i : ℕ) : K := ∑ j ∈ range m, v i j * u i j

/-- Weighted sum of a column.
Models: cyclic_boosting/utils.py:918, 927. -/
def colSum (n : ℕ) (u v : ℕ → ℕ → K) (j : ℕ) : K := ∑ i ∈ range n, v i j * u i j

/-- One pass of the loop: row correction with the row sums `s0`, then column correction.
Models: cyclic_boosting/utils.py:912-921. -/
def neutralStep (n m : ℕ) (u : ℕ → ℕ → K) (s0 : ℕ → K) (v : ℕ → ℕ → K) : ℕ → ℕ → K :=
  let v1 := fun i j => v i j - s0 i / (∑ j ∈ range m, u i j)
  let s1 := colSum n u v1
  fun i j => v1 i j - s1 j / (∑ i ∈ range n, u i j)

/-- `deviation`.
Models: cyclic_boosting/utils.py:924-928. -/
def neutralDeviation (n m : ℕ) (u v : ℕ → ℕ → K) : K :=
  (∑ i ∈ range n, |rowSum m u v i|) + ∑ j ∈ range m, |colSum n u v j|

/-- The loop, with `fuel` passes left.
Models: cyclic_boosting/utils.py:911-930. -/
def neutralLoop (n m : ℕ) (u : ℕ → ℕ → K) : ℕ → K → (ℕ → K) → (ℕ → ℕ → K) → ℕ → ℕ → K
  | 0, _, _, v => v
  | fuel + 1, deviation, s0, v =>
    if 1 / 100 < deviation then
      let v' := neutralStep n m u s0 v
      neutralLoop n m u fuel (neutralDeviation n m u v') (rowSum m u v') v'
    else v

/-- `neutralize_one_dim_influence`: at most four passes, starting with deviation 100.
Models: cyclic_boosting/utils.py:894-930. -/
def neutralizeOneDim (n m : ℕ) (v u : ℕ → ℕ → K) : ℕ → ℕ → K :=
  neutralLoop n m u 4 100 (rowSum m u v) v

end

end CB
