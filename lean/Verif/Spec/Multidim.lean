import Mathlib.Algebra.BigOperators.Group.List.Defs
import Mathlib.Algebra.Order.Floor.Ring
import Mathlib.Data.Nat.Notation

set_option autoImplicit false

/-!
Specification of multi-dimensional bin numbering: mixed-radix numbers.
-/
namespace CB.Spec

/-- `t` is a tuple of bin numbers for the numbers of bins `ns`. -/
def IsBinTuple (ns : List ℕ) (t : List ℕ) : Prop :=
  t.length = ns.length ∧ ∀ (i : ℕ) (h : i < t.length) (h' : i < ns.length), t[i] < ns[i]

/-- A row of real numbers lies in the cells of the tuple `t`: componentwise `t i <= x i < t i + 1`. -/
def InCell {K : Type*} [Field K] [LinearOrder K] (row : List K) (t : List ℕ) : Prop :=
  row.length = t.length ∧
    ∀ (i : ℕ) (h : i < row.length) (h' : i < t.length), (t[i] : K) ≤ row[i] ∧ row[i] < (t[i] : K) + 1

end CB.Spec
