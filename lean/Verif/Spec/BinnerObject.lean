import Verif.Model.Api

/-!
# Specification: which columns a binner bins
-/

set_option autoImplicit false

namespace CB.Spec

/-- The binner is to bin this column: it has a feature property and is not the weight column. -/
def ToBin (props : List (String × ℕ)) (weight : Option String) (c : String) : Prop :=
  some c ≠ weight ∧ ∃ property, props.lookup c = some property

open Classical in
/-- The columns among the given ones that the binner is to bin. -/
noncomputable def binColumns (props : List (String × ℕ)) (weight : Option String) (columns : List String) : List String :=
  columns.filter fun c => decide (ToBin props weight c)

/-- Every sample of the table has a positive weight (1 if there is no weight column). -/
def PositiveWeights (weight : Option String) (F : DataFrame) : Prop :=
  ∀ c, weight = some c → ∀ s < F.n, ∃ v : ℝ, F.X s c = .fin v ∧ 0 < v

/-- The weights of the samples: the entries of the weight column, or 1 if there is none. -/
def IsWeights (weight : Option String) (F : DataFrame) (weights : List ℝ) : Prop :=
  weights.length = F.n ∧ (weight = none → ∀ w ∈ weights, w = 1) ∧
    ∀ c, weight = some c → c ∈ F.columns ∧ ∀ (s : ℕ) (h : s < weights.length), F.X s c = .fin weights[s]

end CB.Spec
