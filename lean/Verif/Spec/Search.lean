import Mathlib.Order.Defs.LinearOrder
import Mathlib.Tactic.TypeStar
import Mathlib.Data.Nat.Notation

set_option autoImplicit false

/-!
Specification of searching in a sorted list, independent of any search algorithm.
-/
namespace CB.Spec

variable {K : Type*} [LinearOrder K]

/-- The list is sorted ascending; repetitions are allowed. -/
def Sorted (z : List K) : Prop := z.Pairwise (· ≤ ·)

/-- `r` is the index of the first element that is at least `s` (`z.length` if there is none). -/
def IsFirstGE (z : List K) (s : K) (r : ℕ) : Prop :=
  r ≤ z.length ∧ (∀ (j : ℕ) (h : j < z.length), j < r → z[j] < s) ∧
    (∀ (j : ℕ) (h : j < z.length), r ≤ j → s ≤ z[j])

/-- `r` elements are at most `s`, and they come first: `r - 1` is the index of the last element that is at most
`s`. -/
def IsCountLE (z : List K) (s : K) (r : ℕ) : Prop :=
  r ≤ z.length ∧ (∀ (j : ℕ) (h : j < z.length), j < r → z[j] ≤ s) ∧
    (∀ (j : ℕ) (h : j < z.length), r ≤ j → s < z[j])

end CB.Spec
