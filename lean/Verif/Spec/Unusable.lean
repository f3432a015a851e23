import Verif.Model.BinnedFit

/-!
# Specification: raw values that a pipeline cannot use
-/

set_option autoImplicit false

namespace CB.Spec

/-- `x` differs from all values that occur in the training data, by more than epsilon times the distance of some two of these
values (by more than epsilon, if only one value occurs). -/
def Unseen (epsilon : ℝ) (seen : ℝ → Prop) (x : ℝ) : Prop :=
  ∃ d, ((∃ a b, seen a ∧ seen b ∧ a ≠ b ∧ d = |a - b|) ∨ (d = 1 ∧ ∀ a b, seen a → seen b → a = b)) ∧
    ∀ v, seen v → epsilon * d < |v - x|

/-- The values of a column with the given flags that carry no information for a pipeline: NaN, infinities, the magic integers if
flagged, all values if the training data holds no number, and categories that do not occur in the training data. -/
def Unusable (epsilon : ℝ) (flags : ℕ) (seen : ℝ → Prop) (x : Flt ℝ) : Prop :=
  x = .nan ∨ x = .pinf ∨ x = .ninf ∨
    (Flags.isSet flags Flags.HAS_MAGIC_INT_MISSING = true ∧ (x = .fin (-9) ∨ x = .fin (-999))) ∨
    (∀ v, ¬ seen v) ∨
    (Flags.isSet flags Flags.IS_CONTINUOUS = false ∧ ∃ y, x = .fin y ∧ Unseen epsilon seen y)

end CB.Spec
