import Verif.Model.Api

/-!
# Specification for C133: choosing rows of a table
-/

set_option autoImplicit false

namespace CB.Spec

/-- The table of `n` rows whose row `s` is the row `ρ s` of `F`: a part of `F`, a single row, `F` in another order or with repeated rows. -/
def chooseRows (F : DataFrame) (ρ : ℕ → ℕ) (n : ℕ) : DataFrame := ⟨F.columns, fun s c => F.X (ρ s) c, n⟩

/-- The outcome of a prediction for the chosen rows, from the outcome for the whole table: the same exception, or the chosen predictions. -/
def chosen {ε : Type*} (ρ : ℕ → ℕ) : Option (Except ε (ℕ → ℝ)) → Option (Except ε (ℕ → ℝ))
  | some (.ok p) => some (.ok fun s => p (ρ s))
  | some (.error e) => some (.error e)
  | none => none

end CB.Spec
