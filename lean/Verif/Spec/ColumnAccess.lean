import Verif.Model.ColumnAccess

/-! Which column of a table a label means. -/

set_option autoImplicit false

namespace CB

section
variable {α : Type}

/-- The labels of a `column` argument. -/
def ColumnArg.labels : ColumnArg → List Label
  | .one l => [l]
  | .list ls => ls
  | .tuple ls => ls

/-- The labels a table has. -/
def DataTable.has : DataTable α → Label → Prop
  | .frame columns, l => l ∈ columns.map Prod.fst
  | .array width _, l => ∃ j : ℕ, j < width ∧ (l = .int j ∨ l = .int ((j : ℤ) - width))

end

end CB

namespace CB.Spec
open CB

/-- `c` is the column that `label` means: the only column of a frame with that name, or the column of an array at that position, counted
from the start, or from the end for negative numbers. -/
def IsColumn {α : Type} : DataTable α → Label → (ℕ → α) → Prop
  | .frame columns, label, c => ∃ before after, columns = before ++ (label, c) :: after ∧ (∀ d ∈ before ++ after, d.1 ≠ label)
  | .array width entry, label, c =>
    ∃ j : ℕ, j < width ∧ (label = .int j ∨ label = .int ((j : ℤ) - width)) ∧ c = fun i => entry i j

end CB.Spec
