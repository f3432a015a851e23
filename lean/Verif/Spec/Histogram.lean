import Mathlib.Algebra.BigOperators.Group.List.Basic
import Mathlib.Algebra.Order.Field.Basic

/-!
# Specification: binned statistics
-/

set_option autoImplicit false

namespace CB.Spec

variable {K : Type*} [Field K] [LinearOrder K]

/-- Total weight of the samples (target, weight) whose target is at most `y`. -/
def weightUpTo (l : List (K × K)) (y : K) : K := (l.map (fun s => if s.1 ≤ y then s.2 else 0)).sum

/-- `q` is the smallest target at which the share `tau` of the total weight is reached. -/
def IsLeastQuantile (tau : K) (l : List (K × K)) (q : K) : Prop :=
  (∃ s ∈ l, s.1 = q) ∧ tau * (l.map Prod.snd).sum ≤ weightUpTo l q ∧
    ∀ s ∈ l, tau * (l.map Prod.snd).sum ≤ weightUpTo l s.1 → q ≤ s.1

/-- `v` is the value at the position `q * (n - 1)` (counted from 0) of `n` sorted targets, interpolated linearly between the two
neighbouring targets. -/
def IsInterpolatedQuantile (q : K) (sorted : List K) (v : K) : Prop :=
  ∃ (i : ℕ) (t x : K), q * ((sorted.length : K) - 1) = (i : K) + t ∧ 0 ≤ t ∧ t < 1 ∧ sorted[i]? = some x ∧
    ((t = 0 ∧ v = x) ∨ ∃ y, sorted[i + 1]? = some y ∧ v = (1 - t) * x + t * y)

/-- `v` lies in the `k`-th of the intervals between successive boundaries (counted from 0); every interval is open to the right, the
last one closed. -/
def InInterval (boundaries : List K) (k : ℕ) (v : K) : Prop :=
  ∃ lo hi, boundaries[k]? = some lo ∧ boundaries[k + 1]? = some hi ∧ lo ≤ v ∧ v ≤ hi ∧ (v = hi → k + 2 = boundaries.length)

end CB.Spec
