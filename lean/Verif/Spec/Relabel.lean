import Verif.Model.Fit
import Mathlib.Data.Real.Basic
import Mathlib.Data.Real.Archimedean
import Mathlib.Algebra.Group.End

/-!
# Specification: tables whose categories are numbered differently
-/

set_option autoImplicit false

namespace CB.Spec

/-- `X'` is `X` with other numbers for the categories: number `k` in column `c` becomes `π c k`. Missing, infinite and negative
entries stay, and so does every entry of a column whose numbering is not changed. -/
def Recoded (π : String → Equiv.Perm ℕ) (X X' : Table ℝ) : Prop :=
  ∀ s c, (∃ k : ℕ, X s c = .fin k ∧ X' s c = .fin (π c k : ℕ)) ∨
    (X' s c = X s c ∧ (π c = 1 ∨ ∀ x, X s c = .fin x → x < 0))

/-- In the first `n` rows of `X`, column `c` holds the categories `0, …, m - 1`. Each of them occurs in a row without missing
entries in the columns `group`. -/
structure HoldsCategories (X : Table ℝ) (n : ℕ) (group : List String) (c : String) (m : ℕ) : Prop where
  below : ∀ s < n, ∀ x, X s c = .fin x → x < m
  occur : ∀ k < m, ∃ s < n, X s c = .fin (k : ℕ) ∧ ∀ d ∈ group, ∃ x, 0 ≤ x ∧ X s d = .fin x

/-- The feature `f` treats the categories as unordered: its columns keep their numbers, or the renumbered ones among them hold
the categories `0, …, m - 1` and the feature is smoothed by weighted means. -/
def Unordered (π : String → Equiv.Perm ℕ) (m : String → ℕ) (D : TrainSet) (f : FeatureSpec × SmootherKind) : Prop :=
  (∀ c ∈ f.1.group, π c = 1) ∨
    ((∀ c ∈ f.1.group, π c ≠ 1 → HoldsCategories D.X D.n f.1.group c (m c)) ∧
      ∃ s useNorm t, f.2 = metaSmoother s useNorm t ∧
        (s = .weightedMean ∧ f.1.group.length = 1 ∨ s = .weightedMeanMulti))

end CB.Spec
