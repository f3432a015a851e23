import Verif.Model.BinSmoothers

/-!
# Specification: slices of an interaction
-/

set_option autoImplicit false

namespace CB.Spec

/-- `f'` lists the entries of `f` (one per bin of an interaction with `ns` bins in its columns) for the bins whose columns but the
last are in the bins `t`. -/
def IsSlice (ns t : List ℕ) (f f' : ℕ → ℝ) : Prop :=
  ∀ k b : ℕ, (arangeMulti ns)[b]? = some (t ++ [k]) → f' k = f b

/-- The open smoothers predict each row from this row alone and return one value per row. -/
def RowWise (O : OpenSmoothers) : Prop :=
  (∀ name g X y, ∃ p : List (Flt ℝ) → Flt ℝ, ∀ rows, O.explicit name g X y rows = rows.map p) ∧
  (∀ z X y, ∃ p : List (Flt ℝ) → Flt ℝ, ∀ rows, O.seasonal z X y rows = rows.map p)

end CB.Spec
