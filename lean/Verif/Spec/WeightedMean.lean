import Mathlib.Algebra.BigOperators.Group.Finset.Basic
import Mathlib.Algebra.Order.Field.Basic

/-!
# Specification: where a regularised value lies
-/

set_option autoImplicit false

namespace CB.Spec
open Finset

/-- `x` lies between `a` and `b`. -/
def LiesBetween {K : Type*} [LinearOrder K] (a b x : K) : Prop := min a b ≤ x ∧ x ≤ max a b

/-- What weighted mean smoothing pulls bin values to: the neutral factor 0, or with normalization the weighted mean of the bin
values (0 if there is no weight). -/
def pullTarget {K : Type*} [Field K] [LinearOrder K] (useNormalization : Bool) (n : ℕ) (weights values : ℕ → K) : K :=
  if useNormalization = true ∧ 0 < ∑ b ∈ range n, weights b then
    (∑ b ∈ range n, values b * weights b) / ∑ b ∈ range n, weights b
  else 0

end CB.Spec
