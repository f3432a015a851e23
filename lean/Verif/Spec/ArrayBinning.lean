import Verif.Spec.BinnerObject
import Verif.Model.ArrayBinning

/-!
# Specification: element types large enough for the bin numbers
-/

set_option autoImplicit false

namespace CB.Spec

open Classical in
/-- The number of different values of a column (`none` entries are missing values). -/
noncomputable def distinctValues (column : List (Option ℝ)) : ℕ := (column.filterMap id).toFinset.card

/-- The element type has room for -1 and all bin numbers: it is a float type, or its range starts at -1 or below, and contains as many non-negative
numbers as there are different values in a discrete column, and bins for a continuous one. -/
def LargeEnough (t : ElementType) (B : Binner) (weight : Option String) (F : DataFrame) : Prop :=
  t = .float ∨ ∃ lo hi, t = .int lo hi ∧ lo ≤ -1 ∧ ∀ c property, c ∈ F.columns → some c ≠ weight → B.props.lookup c = some property →
    ((Flags.isSet property Flags.IS_ORDERED || Flags.isSet property Flags.IS_UNORDERED) = true →
      (distinctValues (F.X.column F.n c) : ℤ) ≤ hi + 1) ∧
    ((Flags.isSet property Flags.IS_ORDERED || Flags.isSet property Flags.IS_UNORDERED) = false → (B.nBins c : ℤ) ≤ hi + 1)

end CB.Spec
