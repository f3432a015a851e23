import Verif.Model.BinnedFit

/-!
# Specification: changing the units of columns
-/

set_option autoImplicit false

namespace CB.Spec

/-- The same data with column `c` measured in another unit: `x` becomes `a c * x + b c` (as from Celsius to Fahrenheit).
Missing and infinite values stay as they are. -/
def rescale (a b : String → ℝ) (X : Table ℝ) : Table ℝ := fun s c =>
  match X s c with
  | .fin x => .fin (a c * x + b c)
  | v => v

/-- Only continuous columns without magic integers for missing values change their unit. -/
def RescalesContinuous (B : Binner) (columns : List String) (a b : String → ℝ) : Prop :=
  ∀ c, (a c = 1 ∧ b c = 0) ∨
    (0 < a c ∧ c ∈ columns ∧ ∃ fp, B.props.lookup c = some fp ∧ Flags.isSet fp Flags.IS_CONTINUOUS = true ∧
      Flags.isSet fp Flags.HAS_MAGIC_INT_MISSING = false)

end CB.Spec
