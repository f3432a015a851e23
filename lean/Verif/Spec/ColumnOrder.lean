import Verif.Model.SmootherChoice

/-!
# Specification for C134: feature groups with their columns in another order
-/

set_option autoImplicit false

namespace CB.Spec

/-- `g'` has the same columns as `g`, each once, in the same or in another order. -/
def SameGroup (g g' : List String) : Prop := g' = g ∨ g.Nodup ∧ g'.Perm g

/-- The same feature groups, up to the orders of their columns. -/
def SameGroups (gs gs' : List (List String)) : Prop := List.Forall₂ SameGroup gs gs'

/-- The choice of smoothers makes no difference between the columns of a group: it is not the group-by choice, and no smoother is given
explicitly for a group of several columns. -/
def TreatsColumnsAlike (c : Choice) : Prop := c.kind ≠ .groupBy ∧ ∀ e ∈ c.explicit, e.1.length < 2

/-- The hierarchical feature groups do not depend on the orders of columns. -/
def OrderFreeHierarchy (hierarchical : Option (List (List String))) : Prop :=
  ∀ groups, hierarchical = some groups → ∀ g g', SameGroup g g' → (g' ∈ groups ↔ g ∈ groups)

end CB.Spec
