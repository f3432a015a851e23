import Mathlib.Algebra.Order.Field.Basic
import Mathlib.Data.Finset.Card
import Mathlib.Data.Finset.Filter
import Mathlib.Data.Finset.Dedup
import Verif.Spec.Search

set_option autoImplicit false

/-!
Specification of binning: what a user expects from bin numbers, without reference to the implementation.
-/
namespace CB.Spec

variable {K : Type*} [LinearOrder K]

/-- Bin `k` is the right bin for `x`, given the upper boundaries of the bins: it is an existing bin, all bins before it
end below `x`, and it ends at or above `x` unless it is the last one. -/
def InBin (upper : List K) (x : K) (k : ℕ) : Prop :=
  ∃ h : k < upper.length,
    (∀ (j : ℕ) (hj : j < k), upper[j]'(by omega) < x) ∧ (x ≤ upper[k] ∨ k = upper.length - 1)

/-- Rank of `v` among the distinct values of a column (`none` entries are missing values). -/
def rankIn (column : List (Option K)) (v : K) : ℕ :=
  (((column.filterMap id).toFinset).filter (· < v)).card

/-- The samples of a column with a known value, paired with their weights (`none` entries are missing values). -/
def samples {K : Type*} : List (Option K) → List K → List (K × K)
  | some x :: z, w :: ws => (x, w) :: samples z ws
  | none :: z, _ :: ws => samples z ws
  | _, _ => []

/-- Share of the total weight that is carried by samples with a value not larger than `v`. -/
def weightShare {K : Type*} [Field K] [LinearOrder K] (samples : List (K × K)) (v : K) : K :=
  ((samples.filter (fun p => p.1 ≤ v)).map Prod.snd).sum / (samples.map Prod.snd).sum

/-- Share of the total weight carried by samples in the half-open interval `(lo, hi]` (no lower limit if `lo` is
`none`). -/
def shareBetween {K : Type*} [Field K] [LinearOrder K] (samples : List (K × K)) (lo : Option K) (hi : K) : K :=
  ((samples.filter (fun p => (lo.all (fun l => decide (l < p.1))) && decide (p.1 ≤ hi))).map Prod.snd).sum
    / (samples.map Prod.snd).sum

/-- `m` is the largest value of the list. -/
def IsMax (values : List K) (m : K) : Prop := m ∈ values ∧ ∀ v ∈ values, v ≤ m

/-- `m` is the smallest value of the list. -/
def IsMin (values : List K) (m : K) : Prop := m ∈ values ∧ ∀ v ∈ values, m ≤ v

end CB.Spec
